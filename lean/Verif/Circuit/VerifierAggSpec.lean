import Verif.Circuit.VerifierAgg
import Verif.Circuit.VerifierConst
import Verif.Circuit.TranscriptSpec

/-!
# Scalars and bases of the verifier circuit

`Ew q w a x`: in the assignment `w` the limbs of `x` are in range and stand for `a`. The values are those of the value
functions (`coeffVal`, `sigmaVal`, `qVals`, `selVals`, `instVals`, `quotVals`, `aggVals`), both for the values the builder
stores and for other assignments. Points stand for elements of a group `G` with coordinates `te`.
-/

set_option linter.unusedSectionVars false

namespace Verif.Circuit.VerifierAgg

open Verif.Circuit Verif.Circuit.VerifierPoly Verif.Circuit.TranscriptVar Verif.Conv

variable {p : ℕ} [hp : Fact p.Prime] {Q : ℕ} [hQ : Fact Q.Prime] {I : Info p} {k : ℕ} {H : Prop}

/-- see the file header -/
def Ew (q : FpElem p) (w : ℕ → ZMod p) (a : ZMod Q) (x : FpElemVar p) : Prop := x.Small q w ∧ El Q q w x = a

theorem mul_ew (h : Par I Q k) {c : Circ p} (hc : Ctx H k c) {x y : FpElemVar p} {a b : ZMod Q}
    (hx : Hol H I.mod a x c) (hy : Hol H I.mod b y c) :
    Spec (modMul x y I.mod) c H (fun v c' => Hol H I.mod (a * b) v c')
      (fun v w => ∀ a b : ZMod Q, Ew I.mod w a x → Ew I.mod w b y → Ew I.mod w (a * b) v) :=
  Spec.conseq hc.wf (VerifierPoly.mul_spec h hc hx hy) (fun h _ _ => h) (fun _ _ _ h => h) (fun v w _ _ g a b h1 h2 => by
    obtain ⟨s, e⟩ := g h1.1 h2.1
    exact ⟨s, by rw [e, h1.2, h2.2]⟩)

theorem mulConst_ew (h : Par I Q k) {c : Circ p} (hc : Ctx H k c) {x : FpElemVar p} {y : FpElem p} {a b : ZMod Q}
    (hx : Hol H I.mod a x c) (hy : Cst I b y) :
    Spec (modMulConstant x y I.mod) c H (fun v c' => Hol H I.mod (a * b) v c')
      (fun v w => ∀ a : ZMod Q, Ew I.mod w a x → Ew I.mod w (a * b) v) :=
  Spec.conseq hc.wf (mulConst_spec h hc hx hy) (fun h _ _ => h) (fun _ _ _ h => h) (fun v w _ _ g a h1 => by
    obtain ⟨s, e⟩ := g h1.1
    exact ⟨s, by rw [e, h1.2]⟩)

theorem el_map {q : FpElem p} {w : ℕ → ZMod p} {xs : List (FpElemVar p)} {as : List (ZMod Q)}
    (hx : List.Forall₂ (fun x a => Ew q w a x) xs as) : (∀ x ∈ xs, x.Small q w) ∧ xs.map (El Q q w) = as := by
  induction hx with
  | nil => exact ⟨by simp, rfl⟩
  | cons h1 _ ih =>
    refine ⟨?_, by rw [List.map_cons, h1.2, ih.2]⟩
    intro x hx
    rcases List.mem_cons.1 hx with rfl | hx
    · exact h1.1
    · exact ih.1 x hx

theorem addVec_ew (h : Par I Q k) {c : Circ p} (hc : Ctx H k c) {xs : List (FpElemVar p)} {as : List (ZMod Q)}
    (hx : List.Forall₂ (fun x a => Hol H I.mod a x c) xs as) (hl : as.length ≤ 2 ^ k) :
    Spec (modAddVec xs I.mod) c H (fun v c' => Hol H I.mod as.sum v c')
      (fun v w => ∀ as : List (ZMod Q), List.Forall₂ (fun x a => Ew I.mod w a x) xs as → v.Small I.mod w →
        Ew I.mod w as.sum v) :=
  Spec.conseq hc.wf (addVec_spec h hc hx hl) (fun h _ _ => h) (fun _ _ _ h => h) (fun v w _ _ g bs hb sv => by
    obtain ⟨s, e⟩ := el_map hb
    refine ⟨sv, ?_⟩
    have := (loose_sum h (by rw [hx.length_eq]; exact hl) s g).el h sv
    rw [this, e])

theorem add_ew (h : Par I Q k) {c : Circ p} (hc : Ctx H k c) {x y : FpElemVar p} {a b : ZMod Q}
    (hx : Hol H I.mod a x c) (hy : Hol H I.mod b y c) :
    Spec (modAdd x y I.mod) c H (fun v c' => Hol H I.mod (a + b) v c')
      (fun v w => ∀ a b : ZMod Q, Ew I.mod w a x → Ew I.mod w b y → v.Small I.mod w → Ew I.mod w (a + b) v) :=
  Spec.conseq hc.wf (VerifierPoly.add_spec h hc hx hy) (fun h _ _ => h) (fun _ _ _ h => h) (fun v w _ _ g a b h1 h2 sv => by
    have h4 := two_pow_k h
    obtain ⟨d, hd, hh⟩ := g
    refine ⟨sv, ?_⟩
    have := (loose_sum h (xs := [x, y]) (v := v) (by simp only [List.length_cons, List.length_nil]; omega) (by
      intro z hz
      simp only [List.mem_cons, List.not_mem_nil, or_false] at hz
      rcases hz with rfl | rfl
      exacts [h1.1, h2.1]) ⟨d, hd, by simpa using hh⟩).el h sv
    rw [this]
    simp [h1.2, h2.2])

theorem one_ew (h : Par I Q k) {w : ℕ → ZMod p} (hz : w 0 = 0) (ho : w 1 = 1) : Ew I.mod w (1 : ZMod Q) (oneElem I) :=
  one_el h hz ho

/-! ## The powers of `α³` -/

/-- the powers behind `x` -/
def alphaVals (s : ZMod Q) : ℕ → ZMod Q → List (ZMod Q)
  | 0, _ => []
  | n + 1, x => (x * s) :: alphaVals s n (x * s)

theorem alphaLoop_spec (h : Par I Q k) {α3 : FpElemVar p} {s : ZMod Q} (n : ℕ) :
    ∀ {c : Circ p} (_ : Ctx H k c) {x : FpElemVar p} {a : ZMod Q}, Hol H I.mod s α3 c → Hol H I.mod a x c →
    Spec (alphaLoop I α3 n x) c H
      (fun r c' => List.Forall₂ (fun y b => Hol H I.mod b y c') r (alphaVals s n a))
      (fun r w => ∀ s a : ZMod Q, Ew I.mod w s α3 → Ew I.mod w a x →
        List.Forall₂ (fun y b => Ew I.mod w b y) r (alphaVals s n a)) := by
  induction n with
  | zero =>
    intro c hc x a _ _
    exact Spec.pure hc.wf List.Forall₂.nil (fun w _ _ s a _ _ => List.Forall₂.nil)
  | succ n ih =>
    intro c hc x a hs hx
    rw [alphaLoop]
    refine hbind hc.wf (mul_ew h hc hx hs) ?_
    intro y c1 e1 hy
    refine hbind e1.wf (ih (hc.ext e1) (hs.ext e1) hy) ?_
    intro ys c2 e2 hys
    refine Spec.pure e2.wf (List.Forall₂.cons (hy.ext e2) hys) ?_
    intro w _ _ q1 q2 s a h1 h2
    exact List.Forall₂.cons (q2 a s h2 h1) (q1 s _ h1 (q2 a s h2 h1))

theorem alphaVals_eq (s : ZMod Q) (n : ℕ) : ∀ x, alphaVals s n x = (List.range n).map fun j => x * s ^ (j + 1) := by
  induction n with
  | zero => intro x; rfl
  | succ n ih =>
    intro x
    rw [alphaVals, ih, List.range_succ_eq_map, List.map_cons, List.map_map]
    simp only [zero_add, pow_one, List.cons.injEq, true_and]
    refine List.map_congr_left fun j _ => ?_
    simp only [Function.comp, Nat.succ_eq_add_one]
    ring

theorem alphaBasis_spec (h : Par I Q k) {α3 : FpElemVar p} {s : ZMod Q} {n : ℕ} {c : Circ p} (hc : Ctx H k c)
    (hs : Hol H I.mod s α3 c) (hn : H → n ≠ 0) :
    Spec (alphaBasis I α3 n) c H
      (fun r c' => List.Forall₂ (fun y b => Hol H I.mod b y c') r ((List.range n).map fun j => s ^ j))
      (fun r w => ∀ s : ZMod Q, Ew I.mod w s α3 →
        List.Forall₂ (fun y b => Ew I.mod w b y) r ((List.range n).map fun j => s ^ j)) := by
  unfold alphaBasis
  split
  · rename_i h0
    exact Spec.fail fun hH => hn hH h0
  rename_i h0
  obtain ⟨m, rfl⟩ := Nat.exists_eq_succ_of_ne_zero h0
  have e : ∀ s : ZMod Q, (List.range (m + 1)).map (fun j => s ^ j) = 1 :: alphaVals s m 1 := by
    intro s
    rw [alphaVals_eq, List.range_succ_eq_map, List.map_cons, List.map_map]
    simp only [pow_zero, one_mul]
    rfl
  refine hbind hc.wf (alphaLoop_spec h _ hc hs (one_hol h hc)) ?_
  intro r c1 e1 hr
  refine Spec.pure e1.wf ?_ ?_
  · rw [Nat.succ_eq_add_one, e]
    exact List.Forall₂.cons (one_hol h (hc.ext e1)) hr
  · intro w hz ho q1 s h1
    rw [Nat.succ_eq_add_one, e]
    exact List.Forall₂.cons (one_ew h hz ho) (q1 s 1 h1 (one_ew h hz ho))

/-! ## The fifth power -/

theorem modulus_new (h : Par I Q k) {x : FpElemVar p} (hx : x.Match I.mod) :
    FpElem.new ((Q : ℕ) : ZMod p) x.m (some x.tpm) = .ok I.mod := by
  rw [hx.1, hx.2, FpElem.new_mul h.mul h.q_lt_p]
  have h0 := h.mul.ok.p0
  have hi := h.int
  unfold FpElem.int at hi
  have e0 : Q % 2 ^ I.mod.m = I.mod.p0.val := by
    rw [← hi, Nat.add_mul_mod_self_left, Nat.mod_eq_of_lt h0]
  have e1 : Q / 2 ^ I.mod.m = I.mod.p1.val := by
    rw [← hi, Nat.add_mul_div_left _ _ (by positivity), Nat.div_eq_of_lt h0, zero_add]
  rw [e0, e1, ZMod.natCast_val, ZMod.cast_id, ZMod.natCast_val, ZMod.cast_id]

theorem bits_lt (h : Par I Q k) : modulusBits Q < modulusBits p := by
  unfold modulusBits
  have h1 : Nat.size Q ≤ 2 * I.mod.m := Nat.size_le.2 h.q_lt
  have h2 : 2 * I.mod.m + k + 2 < Nat.size p := Nat.lt_size.2 h.wide
  omega

theorem power5_spec (h : Par I Q k) {c : Circ p} (hc : Ctx H k c) {x : FpElemVar p} {a : ZMod Q} (hx : Hol H I.mod a x c) :
    Spec (power5 Q x) c H (fun v c' => Hol H I.mod (a ^ 5) v c')
      (fun v w => ∀ a : ZMod Q, Ew I.mod w a x → Ew I.mod w (a ^ 5) v) := by
  unfold power5
  rw [if_neg (by have := bits_lt h; omega)]
  refine Spec.liftE_bind (modulus_new h hx.2.1) ?_
  refine hbind hc.wf (mul_ew h hc hx hx) ?_
  intro x2 c1 e1 h2
  have hc1 := hc.ext e1
  refine hbind e1.wf (mul_ew h hc1 h2 (hx.ext e1)) ?_
  intro x3 c2 e2 h3
  have hc2 := hc1.ext e2
  refine Spec.conseq e2.wf (mul_ew h hc2 (h2.ext e2) h3) (fun h _ _ => h) ?_ ?_
  · intro v c' _ hv
    rwa [show a ^ 5 = a * a * (a * a * a) by ring]
  · intro v w _ _ q1 q2 q3 a ha
    rw [show a ^ 5 = a * a * (a * a * a) by ring]
    exact q1 _ _ (q3 a a ha ha) (q2 _ _ (q3 a a ha ha) ha)

/-! ## The products of the permutation argument -/

/-- the coefficient of the permutation product, `verifier.rs:564-693` without the first summand -/
def coeffVal (βζ γ : ZMod Q) (l : List (ZMod Q × ZMod Q)) (a : ZMod Q) : ZMod Q :=
  l.foldl (fun acc x => acc * (βζ * x.2 + γ + x.1)) a

theorem coeffLoop_spec (h : Par I Q k) {βζ γ : FpElemVar p} {b g : ZMod Q} (l : List (FpElemVar p × ZMod Q)) :
    ∀ {c : Circ p} (_ : Ctx H k c) {vs : List (ZMod Q)} {prod : FpElemVar p} {a : ZMod Q},
    Hol H I.mod b βζ c → Hol H I.mod g γ c → Hol H I.mod a prod c →
    List.Forall₂ (fun x z => Hol H I.mod z x.1 c) l vs →
    Spec (coeffLoop I βζ γ l prod) c H
      (fun r c' => Hol H I.mod (coeffVal b g (vs.zip (l.map Prod.snd)) a) r.1 c' ∧ Sums H Q I.mod r.2 c')
      (fun r w => ∀ (b g a : ZMod Q) (vs : List (ZMod Q)), Ew I.mod w b βζ → Ew I.mod w g γ → Ew I.mod w a prod →
        List.Forall₂ (fun x z => Ew I.mod w z x.1) l vs → (∀ s ∈ r.2, s.Small I.mod w) →
        Ew I.mod w (coeffVal b g (vs.zip (l.map Prod.snd)) a) r.1) := by
  induction l with
  | nil =>
    intro c hc vs prod a hβ hγ hp hl
    cases hl
    exact Spec.pure hc.wf ⟨hp, fun s hs => by simp at hs⟩ (fun w _ _ b g a vs _ _ h3 h4 _ => by cases h4; exact h3)
  | cons x l ih =>
    intro c hc vs prod a hβ hγ hp hl
    obtain ⟨x, y⟩ := x
    cases hl with
    | cons hx hl =>
    rename_i z vs
    rw [coeffLoop]
    refine constQ_bind h ?_
    intro kE hk
    refine hbind hc.wf (mulConst_ew h hc hβ hk) ?_
    intro t c1 e1 ht
    have hc1 := hc.ext e1
    have h4 := two_pow_k h
    refine hbind e1.wf (addVec_ew h hc1 (xs := [t, x, γ]) (as := [b * y, z, g])
      (List.Forall₂.cons ht (List.Forall₂.cons (hx.ext e1) (List.Forall₂.cons (hγ.ext e1) List.Forall₂.nil)))
      (by simp only [List.length_cons, List.length_nil]; omega)) ?_
    intro sum c2 e2 hsum
    have hc2 := hc1.ext e2
    have e12 := e1.trans e2
    refine hbind e2.wf (mul_ew h hc2 (hp.ext e12) hsum) ?_
    intro pr c3 e3 hpr
    have hc3 := hc2.ext e3
    have e13 := e12.trans e3
    refine hbind e3.wf (ih hc3 (hβ.ext e13) (hγ.ext e13) hpr (hl.imp fun _ _ g => g.ext e13)) ?_
    rintro r c4 e4 ⟨hr, hrs⟩
    have es : ∀ b g z : ZMod Q, [b * y, z, g].sum = b * y + g + z := by
      intro b g z
      simp only [List.sum_cons, List.sum_nil]; ring
    refine Spec.pure e4.wf ⟨?_, Sums.cons (hsum.ext (e3.trans e4)) hrs⟩ ?_
    · rw [es] at hr
      exact hr
    · intro w _ _ q1 q2 q3 q4 b g a vs h1 h2 h3 h4 ss
      cases h4 with
      | cons h4 h5 =>
      rename_i z vs
      have k1 := q4 b h1
      have k2 := q3 [b * y, z, g] (List.Forall₂.cons k1 (List.Forall₂.cons h4 (List.Forall₂.cons h2 List.Forall₂.nil)))
        (ss sum (by simp))
      rw [es] at k2
      exact q1 b g _ vs h1 h2 (q2 a _ h3 k2) h5 (fun s hs => ss s (by simp [hs]))

/-- the coefficient of the last sigma -/
def sigmaVal (β γ : ZMod Q) (l : List (ZMod Q × ZMod Q)) (a : ZMod Q) : ZMod Q :=
  l.foldl (fun acc x => acc * (β * x.2 + γ + x.1)) a

theorem sigmaLoop_spec (h : Par I Q k) {β γ : FpElemVar p} {b g : ZMod Q} (l : List (FpElemVar p × FpElemVar p)) :
    ∀ {c : Circ p} (_ : Ctx H k c) {vs : List (ZMod Q × ZMod Q)} {prod : FpElemVar p} {a : ZMod Q},
    Hol H I.mod b β c → Hol H I.mod g γ c → Hol H I.mod a prod c →
    List.Forall₂ (fun x z => Hol H I.mod z.1 x.1 c ∧ Hol H I.mod z.2 x.2 c) l vs →
    Spec (sigmaLoop I.mod β γ l prod) c H
      (fun r c' => Hol H I.mod (sigmaVal b g vs a) r.1 c' ∧ Sums H Q I.mod r.2 c')
      (fun r w => ∀ (b g a : ZMod Q) (vs : List (ZMod Q × ZMod Q)), Ew I.mod w b β → Ew I.mod w g γ → Ew I.mod w a prod →
        List.Forall₂ (fun x z => Ew I.mod w z.1 x.1 ∧ Ew I.mod w z.2 x.2) l vs → (∀ s ∈ r.2, s.Small I.mod w) →
        Ew I.mod w (sigmaVal b g vs a) r.1) := by
  induction l with
  | nil =>
    intro c hc vs prod a hβ hγ hp hl
    cases hl
    exact Spec.pure hc.wf ⟨hp, fun s hs => by simp at hs⟩ (fun w _ _ b g a vs _ _ h3 h4 _ => by cases h4; exact h3)
  | cons x l ih =>
    intro c hc vs prod a hβ hγ hp hl
    obtain ⟨x, σ⟩ := x
    cases hl with
    | cons hx hl =>
    rename_i z vs
    obtain ⟨hx, hσ⟩ := hx
    rw [sigmaLoop]
    refine hbind hc.wf (mul_ew h hc hβ hσ) ?_
    intro t c1 e1 ht
    have hc1 := hc.ext e1
    have h4 := two_pow_k h
    refine hbind e1.wf (addVec_ew h hc1 (xs := [x, γ, t]) (as := [z.1, g, b * z.2])
      (List.Forall₂.cons (hx.ext e1) (List.Forall₂.cons (hγ.ext e1) (List.Forall₂.cons ht List.Forall₂.nil)))
      (by simp only [List.length_cons, List.length_nil]; omega)) ?_
    intro sum c2 e2 hsum
    have hc2 := hc1.ext e2
    have e12 := e1.trans e2
    refine hbind e2.wf (mul_ew h hc2 (hp.ext e12) hsum) ?_
    intro pr c3 e3 hpr
    have hc3 := hc2.ext e3
    have e13 := e12.trans e3
    refine hbind e3.wf (ih hc3 (hβ.ext e13) (hγ.ext e13) hpr
      (hl.imp fun _ _ g => ⟨g.1.ext e13, g.2.ext e13⟩)) ?_
    rintro r c4 e4 ⟨hr, hrs⟩
    have es : ∀ (b g : ZMod Q) (z : ZMod Q × ZMod Q), [z.1, g, b * z.2].sum = b * z.2 + g + z.1 := by
      intro b g z
      simp only [List.sum_cons, List.sum_nil]; ring
    refine Spec.pure e4.wf ⟨?_, Sums.cons (hsum.ext (e3.trans e4)) hrs⟩ ?_
    · rw [es] at hr
      exact hr
    · intro w _ _ q1 q2 q3 q4 b g a vs h1 h2 h3 h4 ss
      cases h4 with
      | cons h4 h5 =>
      rename_i z vs
      have k1 := q4 b z.2 h1 h4.2
      have k2 := q3 [z.1, g, b * z.2] (List.Forall₂.cons h4.1 (List.Forall₂.cons h2 (List.Forall₂.cons k1 List.Forall₂.nil)))
        (ss sum (by simp))
      rw [es] at k2
      exact q1 b g _ vs h1 h2 (q2 a _ h3 k2) h5 (fun s hs => ss s (by simp [hs]))

/-! ## The selectors -/

/-- the selector scalars, with `w4` left positive -/
def qVals : List (ZMod Q) → List (ZMod Q)
  | w0 :: w1 :: w2 :: w3 :: w4 :: _ =>
    [w0, w1, w2, w3, w0 * w1, w2 * w3, w0 ^ 5, w1 ^ 5, w2 ^ 5, w3 ^ 5, w4, 1, w0 * w1 * w2 * w3 * w4]
  | _ => []

theorem qVars_spec (h : Par I Q k) {c : Circ p} (hc : Ctx H k c) {w : List (FpElemVar p)} {as : List (ZMod Q)}
    (hw : List.Forall₂ (fun x a => Hol H I.mod a x c) w as) (hl : 5 ≤ w.length) :
    Spec (qVars Q I w) c H
      (fun r c' => List.Forall₂ (fun x a => Hol H I.mod a x c') r (qVals as))
      (fun r ww => ∀ as : List (ZMod Q), List.Forall₂ (fun x a => Ew I.mod ww a x) w as →
        List.Forall₂ (fun x a => Ew I.mod ww a x) r (qVals as)) := by
  match w, as, hw with
  | w0 :: w1 :: w2 :: w3 :: w4 :: ws, a0 :: a1 :: a2 :: a3 :: a4 :: as,
      List.Forall₂.cons h0 (List.Forall₂.cons h1 (List.Forall₂.cons h2 (List.Forall₂.cons h3 (List.Forall₂.cons h4 hs)))) =>
    unfold qVars
    refine hbind hc.wf (mul_ew h hc h0 h1) ?_
    intro a c1 e1 ha
    have hc1 := hc.ext e1
    refine hbind e1.wf (mul_ew h hc1 (h2.ext e1) (h3.ext e1)) ?_
    intro b c2 e2 hb
    have hc2 := hc1.ext e2
    have x2 := e1.trans e2
    refine hbind e2.wf (power5_spec h hc2 (h0.ext x2)) ?_
    intro p0 c3 e3 hp0
    have hc3 := hc2.ext e3
    have x3 := x2.trans e3
    refine hbind e3.wf (power5_spec h hc3 (h1.ext x3)) ?_
    intro p1 c4 e4 hp1
    have hc4 := hc3.ext e4
    have x4 := x3.trans e4
    refine hbind e4.wf (power5_spec h hc4 (h2.ext x4)) ?_
    intro p2 c5 e5 hp2
    have hc5 := hc4.ext e5
    have x5 := x4.trans e5
    refine hbind e5.wf (power5_spec h hc5 (h3.ext x5)) ?_
    intro p3 c6 e6 hp3
    have hc6 := hc5.ext e6
    have x6 := x5.trans e6
    refine hbind e6.wf (mul_ew h hc6 (h0.ext x6) (h1.ext x6)) ?_
    intro t1 c7 e7 ht1
    have hc7 := hc6.ext e7
    have x7 := x6.trans e7
    refine hbind e7.wf (mul_ew h hc7 ht1 (h2.ext x7)) ?_
    intro t2 c8 e8 ht2
    have hc8 := hc7.ext e8
    have x8 := x7.trans e8
    refine hbind e8.wf (mul_ew h hc8 ht2 (h3.ext x8)) ?_
    intro t3 c9 e9 ht3
    have hc9 := hc8.ext e9
    have x9 := x8.trans e9
    refine hbind e9.wf (mul_ew h hc9 ht3 (h4.ext x9)) ?_
    intro t4 c10 e10 ht4
    have hc10 := hc9.ext e10
    have x10 := x9.trans e10
    have y9 := e9.trans e10
    have y8 := e8.trans y9
    have y7 := e7.trans y8
    have y6 := e6.trans y7
    have y5 := e5.trans y6
    have y4 := e4.trans y5
    have y3 := e3.trans y4
    have y2 := e2.trans y3
    refine Spec.pure e10.wf ?_ ?_
    · unfold qVals
      exact .cons (h0.ext x10) (.cons (h1.ext x10) (.cons (h2.ext x10) (.cons (h3.ext x10) (.cons (ha.ext y2)
        (.cons (hb.ext y3) (.cons (hp0.ext y4) (.cons (hp1.ext y5) (.cons (hp2.ext y6) (.cons (hp3.ext y7)
          (.cons (h4.ext x10) (.cons (one_hol h hc10) (.cons ht4 .nil))))))))))))
    · intro ww hz ho q10 q9 q8 q7 q6 q5 q4 q3 q2 q1 as hh
      match as, hh with
      | b0 :: b1 :: b2 :: b3 :: b4 :: bs,
        List.Forall₂.cons g0 (List.Forall₂.cons g1 (List.Forall₂.cons g2 (List.Forall₂.cons g3 (List.Forall₂.cons g4 _)))) =>
        unfold qVals
        exact .cons g0 (.cons g1 (.cons g2 (.cons g3 (.cons (q1 _ _ g0 g1)
          (.cons (q2 _ _ g2 g3) (.cons (q3 _ g0) (.cons (q4 _ g1) (.cons (q5 _ g2) (.cons (q6 _ g3)
            (.cons g4 (.cons (one_ew h hz ho)
              (.cons (q10 _ _ (q9 _ _ (q8 _ _ (q7 _ _ g0 g1) g2) g3) g4) .nil))))))))))))
  | [], _, _ => simp at hl
  | [_], _, _ => simp at hl
  | [_, _], _, _ => simp at hl
  | [_, _, _], _, _ => simp at hl
  | [_, _, _, _], _, _ => simp at hl

/-! ## Points -/

section

variable {G : Type}

/-- the point variables exist, and under `H` the builder stores the coordinates of `g` -/
def HolP (H : Prop) (te : G → ZMod p × ZMod p) (g : G) (P : ℕ × ℕ) (c : Circ p) : Prop :=
  PIn c P ∧ (H → ptAt c.val P = te g)

theorem HolP.ext {te : G → ZMod p × ZMod p} {g : G} {P : ℕ × ℕ} {c c' : Circ p} (h : HolP H te g P c) (e : Ext c c') :
    HolP H te g P c' := ⟨h.1.ext e, fun hH => by rw [ptAt_ext e h.1]; exact h.2 hH⟩

/-- a pair of a scalar and a base -/
def EntH (H : Prop) (te : G → ZMod p × ZMod p) (q : FpElem p) (x : ZMod Q × G) (e : FpElemVar p × (ℕ × ℕ)) (c : Circ p) :
    Prop := Hol H q x.1 e.1 c ∧ HolP H te x.2 e.2 c

theorem EntH.ext {te : G → ZMod p × ZMod p} {q : FpElem p} {x : ZMod Q × G} {e : FpElemVar p × (ℕ × ℕ)} {c c' : Circ p}
    (h : EntH H te q x e c) (ex : Ext c c') : EntH H te q x e c' := ⟨h.1.ext ex, h.2.ext ex⟩

def EntW (te : G → ZMod p × ZMod p) (q : FpElem p) (w : ℕ → ZMod p) (x : ZMod Q × G) (e : FpElemVar p × (ℕ × ℕ)) : Prop :=
  Ew q w x.1 e.1 ∧ ptAt w e.2 = te x.2

variable [AddCommGroup G] {te : G → ZMod p × ZMod p}

theorem sub_store {c : Circ p} (hc : WF c) (a b : ℕ) :
    Spec (sub a b) c (a < c.numVars ∧ b < c.numVars) (fun v c' => v < c'.numVars ∧ c'.val v = c.val a - c.val b)
      (fun v w => w v = w a - w b) := by
  unfold sub
  apply Spec.checkVar_bind (fun h => h.1); intro ha
  apply Spec.checkVar_bind (fun h => h.2); intro hb
  apply Spec.witness_bind (fun h => h.1); intro _
  apply Spec.witness_bind (fun h => h.2); intro _
  refine Spec.bind (createVariable_spec hc _ True) (fun _ _ _ => trivial) hc ?_
  rintro v c1 e1 ⟨hv, hx⟩
  refine Spec.bind (subGate_spec e1.wf a b v)
    (fun _ _ _ => ⟨⟨e1.lt ha, e1.lt hb, hv⟩, by rw [hx, e1.val a ha, e1.val b hb]⟩) e1.wf ?_
  rintro _ c2 e2 -
  exact Spec.pure e2.wf ⟨e2.lt hv, by rw [e2.val v hv, hx]⟩ (fun w _ _ h _ => h)

theorem neg_spec (hte : ∀ g, te (-g) = negPt (te g)) {c : Circ p} (hc : Ctx H k c) {P : ℕ × ℕ} {g : G}
    (hP : HolP H te g P c) :
    Spec (inversePoint P) c H (fun v c' => HolP H te (-g) v c')
      (fun v w => ∀ g, ptAt w P = te g → ptAt w v = te (-g)) := by
  unfold inversePoint
  refine Spec.bind (sub_store hc.wf 0 P.1) (fun h _ _ => ⟨hc.wf.z, hP.1.1⟩) hc.wf ?_
  rintro x c1 e1 ⟨hx, hv⟩
  refine Spec.pure e1.wf ⟨⟨hx, e1.lt hP.1.2⟩, fun hH => ?_⟩ ?_
  · rw [hte, ← hP.2 hH]
    unfold ptAt negPt
    rw [hv, (hc.zo hH).1, zero_sub, e1.val _ hP.1.2]
  · intro w h0 _ q1 g hg
    rw [hte, ← hg]
    unfold ptAt negPt
    rw [q1, h0, zero_sub]

/-! ## The selector loop -/

/-- the scalar at number `10` goes with the inverted base -/
def selVals (base : ZMod Q) : ℕ → List (ZMod Q × G) → List (ZMod Q × G)
  | _, [] => []
  | i, (s, P) :: l => (s * base, if i = 10 then -P else P) :: selVals base (i + 1) l

theorem negIf_spec (hte : ∀ g, te (-g) = negPt (te g)) {c : Circ p} (hc : Ctx H k c) {P : ℕ × ℕ} {g : G}
    (hP : HolP H te g P c) (b : Prop) [Decidable b] :
    Spec (if b then inversePoint P else pure P) c H (fun v c' => HolP H te (if b then -g else g) v c')
      (fun v w => ∀ g, ptAt w P = te g → ptAt w v = te (if b then -g else g)) := by
  by_cases hb : b
  · simp only [if_pos hb]
    exact neg_spec hte hc hP
  · simp only [if_neg hb]
    exact Spec.pure hc.wf hP (fun w _ _ g hg => hg)

theorem selLoop_spec (hte : ∀ g, te (-g) = negPt (te g)) (h : Par I Q k) {base : FpElemVar p} {b : ZMod Q}
    (l : List (FpElemVar p × (ℕ × ℕ))) : ∀ (i : ℕ) {c : Circ p} (_ : Ctx H k c) {vs : List (ZMod Q × G)},
    Hol H I.mod b base c → List.Forall₂ (fun e x => EntH H te I.mod x e c) l vs →
    Spec (selLoop I.mod base i l) c H
      (fun r c' => List.Forall₂ (fun e x => EntH H te I.mod x e c') r (selVals b i vs))
      (fun r w => ∀ (b : ZMod Q) (vs : List (ZMod Q × G)), Ew I.mod w b base →
        List.Forall₂ (fun e x => EntW te I.mod w x e) l vs →
        List.Forall₂ (fun e x => EntW te I.mod w x e) r (selVals b i vs)) := by
  induction l with
  | nil =>
    intro i c hc vs _ hl
    cases hl
    exact Spec.pure hc.wf List.Forall₂.nil (fun w _ _ b vs _ h2 => by cases h2; exact List.Forall₂.nil)
  | cons x l ih =>
    intro i c hc vs hb hl
    obtain ⟨s, P⟩ := x
    cases hl with
    | cons hx hl =>
    rename_i z vs
    rw [selLoop]
    refine hbind hc.wf (negIf_spec hte hc hx.2 (i = 10)) ?_
    intro B c1 e1 hB
    have hc1 := hc.ext e1
    refine hbind e1.wf (mul_ew h hc1 (hx.1.ext e1) (hb.ext e1)) ?_
    intro t c2 e2 ht
    have hc2 := hc1.ext e2
    have e12 := e1.trans e2
    refine hbind e2.wf (ih (i + 1) hc2 (hb.ext e12) (hl.imp fun _ _ g => g.ext e12)) ?_
    intro r c3 e3 hr
    refine Spec.pure e3.wf (List.Forall₂.cons ⟨ht.ext e3, hB.ext (e2.trans e3)⟩ hr) ?_
    intro w _ _ q1 q2 q3 b vs h1 h2
    cases h2 with
    | cons h2 h3 => exact List.Forall₂.cons ⟨q2 _ _ h2.1 h1, q3 _ h2.2⟩ (q1 _ _ h1 h3)

/-! ## One instance -/

/-- the values of an instance -/
structure InstVal (Q : ℕ) (G : Type) where
  evals : EvalsVal Q
  z : G
  wires : List G
  sigmas : List G
  selectors : List G
  k : List (ZMod Q)

structure HolI (H : Prop) (te : G → ZMod p × ZMod p) (q : FpElem p) (X : InstVal Q G) (x : InstVar p Q) (c : Circ p) :
    Prop where
  evals : HolE H q X.evals x.evals c
  z : HolP H te X.z x.z c
  wires : List.Forall₂ (fun P g => HolP H te g P c) x.wires X.wires
  sigmas : List.Forall₂ (fun P g => HolP H te g P c) x.sigmas X.sigmas
  selectors : List.Forall₂ (fun P g => HolP H te g P c) x.selectors X.selectors
  k : x.k = X.k

omit [AddCommGroup G] in
theorem HolI.ext {q : FpElem p} {X : InstVal Q G} {x : InstVar p Q} {c c' : Circ p} (h : HolI H te q X x c) (e : Ext c c') :
    HolI H te q X x c' :=
  ⟨h.evals.ext e, h.z.ext e, h.wires.imp fun _ _ g => g.ext e, h.sigmas.imp fun _ _ g => g.ext e,
    h.selectors.imp fun _ _ g => g.ext e, h.k⟩

structure EvalsW (q : FpElem p) (w : ℕ → ZMod p) (a : EvalsVal Q) (e : EvalsVar p) : Prop where
  wires : List.Forall₂ (fun x z => Ew q w z x) e.wires a.wires
  sigmas : List.Forall₂ (fun x z => Ew q w z x) e.sigmas a.sigmas
  permNext : Ew q w a.permNext e.permNext

structure InstW (te : G → ZMod p × ZMod p) (q : FpElem p) (w : ℕ → ZMod p) (X : InstVal Q G) (x : InstVar p Q) : Prop where
  evals : EvalsW q w X.evals x.evals
  z : ptAt w x.z = te X.z
  wires : List.Forall₂ (fun P g => ptAt w P = te g) x.wires X.wires
  sigmas : List.Forall₂ (fun P g => ptAt w P = te g) x.sigmas X.sigmas
  selectors : List.Forall₂ (fun P g => ptAt w P = te g) x.selectors X.selectors
  k : x.k = X.k

/-- the elements stand for the challenges `x` in the assignment -/
structure ChalEw (q : FpElem p) (w : ℕ → ZMod p) (x : Six (ZMod Q)) (ch : ChalVar p) : Prop where
  α : Ew q w x.α ch.α
  α2 : Ew q w (x.α * x.α) ch.α2
  α3 : Ew q w (x.α * x.α * x.α) ch.α3
  β : Ew q w x.β ch.β
  γ : Ew q w x.γ ch.γ
  ζ : Ew q w x.ζ ch.ζ
  v : Ew q w x.v ch.v
  u : Ew q w x.u ch.u

theorem _root_.Verif.Circuit.TranscriptVar.ChalHol.ext {q : FpElem p} {x : Six (ZMod Q)} {ch : ChalVar p} {c c' : Circ p}
    (h : ChalHol H q x ch c) (e : Ext c c') : ChalHol H q x ch c' :=
  ⟨h.α.ext e, h.α2.ext e, h.α3.ext e, h.β.ext e, h.γ.ext e, h.ζ.ext e, h.v.ext e, h.u.ext e⟩

/-- the scalars and bases of an instance -/
def instVals (ch : Six (ZMod Q)) (l1 : ZMod Q) (X : InstVal Q G) (base : ZMod Q) : List (ZMod Q × G) :=
  ((ch.α * ch.α * l1 + coeffVal (ch.β * ch.ζ) ch.γ (X.evals.wires.zip X.k) ch.α) * base, X.z) ::
  (sigmaVal ch.β ch.γ ((X.evals.wires.take (X.wires.length - 1)).zip X.evals.sigmas) (ch.α * ch.β * X.evals.permNext) * base,
    -X.sigmas.getLastD 0) ::
  selVals base 0 ((qVals X.evals.wires).zip X.selectors)

omit [AddCommGroup G] in
theorem last_rel {α : Type} {R : α → G → Prop} {xs : List α} {ys : List G} (h : List.Forall₂ R xs ys) {x : α} {d : G}
    (hx : xs.getLast? = some x) : R x (ys.getLastD d) := by
  induction h with
  | nil => simp at hx
  | cons h1 h2 ih =>
    rename_i a b l1 l2
    cases h2 with
    | nil =>
      simp at hx
      subst hx
      exact h1
    | cons h3 h4 =>
      rw [List.getLast?_cons_cons] at hx
      simpa using ih hx

theorem zipK_rel {α : Type} {R : α → ZMod Q → Prop} {xs : List α} {as : List (ZMod Q)} (h : List.Forall₂ R xs as) :
    ∀ ks : List (ZMod Q), ∃ vs, List.Forall₂ (fun x z => R x.1 z) (xs.zip ks) vs ∧
      vs.zip ((xs.zip ks).map Prod.snd) = as.zip ks := by
  induction h with
  | nil => intro ks; exact ⟨[], by simp, by simp⟩
  | cons h1 _ ih =>
    intro ks
    cases ks with
    | nil => exact ⟨[], by simp, by simp⟩
    | cons y ks =>
      obtain ⟨vs, h2, h3⟩ := ih ks
      rename_i a b l1 l2 _
      exact ⟨b :: vs, by simpa using ⟨h1, h2⟩, by simp [h3]⟩

theorem linInst_spec (hte : ∀ g, te (-g) = negPt (te g)) (h : Par I Q k) {c : Circ p} (hc : Ctx H k c) {ch : ChalVar p}
    {y : Six (ZMod Q)} {βζ αβ a2l1 base : FpElemVar p} {l1 b : ZMod Q} (hch : ChalHol H I.mod y ch c)
    (hβζ : Hol H I.mod (y.β * y.ζ) βζ c) (hαβ : Hol H I.mod (y.α * y.β) αβ c)
    (hal : Hol H I.mod (y.α * y.α * l1) a2l1 c) (hb : Hol H I.mod b base c)
    {x : InstVar p Q} {X : InstVal Q G} (hx : HolI H te I.mod X x c) (hw : 5 ≤ x.evals.wires.length)
    (hwl : H → x.wires.length ≠ 0) (hsl : H → x.sigmas ≠ []) :
    Spec (linInst I ch βζ αβ a2l1 x base) c H
      (fun r c' => List.Forall₂ (fun e v => EntH H te I.mod v e c') r.1 (instVals y l1 X b) ∧ Sums H Q I.mod r.2 c')
      (fun r w => ∀ (y : Six (ZMod Q)) (l1 b : ZMod Q) (X : InstVal Q G), ChalEw I.mod w y ch → Ew I.mod w (y.β * y.ζ) βζ →
        Ew I.mod w (y.α * y.β) αβ → Ew I.mod w (y.α * y.α * l1) a2l1 → Ew I.mod w b base → InstW te I.mod w X x →
        (∀ s ∈ r.2, s.Small I.mod w) → List.Forall₂ (fun e v => EntW te I.mod w v e) r.1 (instVals y l1 X b)) := by
  have hwlen := hx.wires.length_eq
  unfold linInst
  obtain ⟨vs, hvs, hz⟩ := zipK_rel hx.evals.1 x.k
  refine hbind hc.wf (coeffLoop_spec h _ hc hβζ hch.γ hch.α hvs) ?_
  rintro r c1 e1 ⟨hr, hrs⟩
  rw [hz, hx.k] at hr
  have hc1 := hc.ext e1
  refine hbind e1.wf (add_ew h hc1 (hal.ext e1) hr) ?_
  intro s c2 e2 hs
  have hc2 := hc1.ext e2
  have x2 := e1.trans e2
  refine hbind e2.wf (mul_ew h hc2 hs (hb.ext x2)) ?_
  intro cz c3 e3 hcz
  have hc3 := hc2.ext e3
  have x3 := x2.trans e3
  refine hbind e3.wf (mul_ew h hc3 (hαβ.ext x3) (hx.evals.2.2.ext x3)) ?_
  intro cc c4 e4 hcc
  have hc4 := hc3.ext e4
  have x4 := x3.trans e4
  split
  · rename_i h0
    exact Spec.fail fun hH => hwl hH h0
  have hx4 := hx.ext x4
  refine hbind e4.wf (sigmaLoop_spec h _ hc4 (hch.β.ext x4) (hch.γ.ext x4) hcc
    (forall₂_zip (List.forall₂_take (x.wires.length - 1) hx4.evals.1) hx4.evals.2.1)) ?_
  rintro t c5 e5 ⟨ht, hts⟩
  have hc5 := hc4.ext e5
  have x5 := x4.trans e5
  refine hbind e5.wf (mul_ew h hc5 ht (hb.ext x5)) ?_
  intro cs c6 e6 hcs
  have hc6 := hc5.ext e6
  have x6 := x5.trans e6
  cases hl : x.sigmas.getLast? with
  | none => exact Spec.fail fun hH => hsl hH (List.getLast?_eq_none_iff.1 hl)
  | some σ =>
  have hx6 := hx.ext x6
  refine hbind e6.wf (neg_spec hte hc6 (last_rel (d := 0) hx6.sigmas hl)) ?_
  intro σ' c7 e7 hσ
  have hc7 := hc6.ext e7
  have x7 := x6.trans e7
  have hx7 := hx.ext x7
  refine hbind e7.wf (qVars_spec h hc7 hx7.evals.1 hw) ?_
  intro qs c8 e8 hqs
  have hc8 := hc7.ext e8
  have x8 := x7.trans e8
  have hx8 := hx.ext x8
  refine hbind e8.wf (selLoop_spec hte h _ 0 hc8 (hb.ext x8) (forall₂_zip hqs hx8.selectors)) ?_
  intro l c9 e9 hl9
  have y8 := e8.trans e9
  have y7 := e7.trans y8
  have y6 := e6.trans y7
  have y5 := e5.trans y6
  have y4 := e4.trans y5
  have y3 := e3.trans y4
  have y2 := e2.trans y3
  refine Spec.pure e9.wf ⟨?_, Sums.cons (hs.ext y3) ((hrs.ext y2).append (hts.ext y6))⟩ ?_
  · unfold instVals
    rw [← hwlen]
    exact .cons ⟨hcz.ext y4, hx.z.ext (x8.trans e9)⟩ (.cons ⟨hcs.ext y7, hσ.ext y8⟩ hl9)
  · intro w _ _ q9 q8 q7 q6 q5 q4 q3 q2 q1 y l1 b X kch kβζ kαβ kal kb kx ss
    have kwl := kx.wires.length_eq
    obtain ⟨vs, hvs, hz⟩ := zipK_rel kx.evals.wires x.k
    have k1 := q1 _ _ _ vs kβζ kch.γ kch.α hvs (fun s hs => ss s (by simp [hs]))
    rw [hz, kx.k] at k1
    have k2 := q2 _ _ kal k1 (ss s (by simp))
    have k3 := q3 _ _ k2 kb
    have k4 := q4 _ _ kαβ kx.evals.permNext
    have k5 := q5 _ _ _ _ kch.β kch.γ k4
      (forall₂_zip (List.forall₂_take (x.wires.length - 1) kx.evals.wires) kx.evals.sigmas) (fun s hs => ss s (by simp [hs]))
    unfold instVals
    rw [← kwl]
    exact .cons ⟨k3, kx.z⟩ (.cons ⟨q6 _ _ k5 kb, q7 _ (last_rel (d := 0) kx.sigmas hl)⟩
      (q9 _ _ kb (forall₂_zip (q8 _ kx.evals.wires) kx.selectors)))

/-- the scalars and bases of all instances -/
def linVals (ch : Six (ZMod Q)) (l1 : ZMod Q) : List (InstVal Q G) → List (ZMod Q) → List (ZMod Q × G)
  | X :: Xs, b :: bs => instVals ch l1 X b ++ linVals ch l1 Xs bs
  | _, _ => []

/-- what the lists of an instance need -/
structure Shape (H : Prop) (x : InstVar p Q) : Prop where
  wires : H → x.wires.length ≠ 0
  sigmas : H → x.sigmas ≠ []
  evals : 5 ≤ x.evals.wires.length

theorem linLoop_spec (hte : ∀ g, te (-g) = negPt (te g)) (h : Par I Q k) {ch : ChalVar p}
    {y : Six (ZMod Q)} {βζ αβ a2l1 : FpElemVar p} {l1 : ZMod Q} (xs : List (InstVar p Q)) :
    ∀ {c : Circ p} (_ : Ctx H k c) {bases : List (FpElemVar p)} {Xs : List (InstVal Q G)} {bs : List (ZMod Q)},
    ChalHol H I.mod y ch c →
    Hol H I.mod (y.β * y.ζ) βζ c → Hol H I.mod (y.α * y.β) αβ c → Hol H I.mod (y.α * y.α * l1) a2l1 c →
    List.Forall₂ (fun x z => Hol H I.mod z x c) bases bs → List.Forall₂ (fun x X => HolI H te I.mod X x c) xs Xs →
    (∀ x ∈ xs, Shape H x) → (H → xs.length = bases.length) →
    Spec (linLoop I ch βζ αβ a2l1 xs bases) c H
      (fun r c' => List.Forall₂ (fun e v => EntH H te I.mod v e c') r.1 (linVals y l1 Xs bs) ∧ Sums H Q I.mod r.2 c')
      (fun r w => ∀ (y : Six (ZMod Q)) (l1 : ZMod Q) (bs : List (ZMod Q)) (Xs : List (InstVal Q G)), ChalEw I.mod w y ch →
        Ew I.mod w (y.β * y.ζ) βζ → Ew I.mod w (y.α * y.β) αβ → Ew I.mod w (y.α * y.α * l1) a2l1 →
        List.Forall₂ (fun x z => Ew I.mod w z x) bases bs → List.Forall₂ (fun x X => InstW te I.mod w X x) xs Xs →
        (∀ s ∈ r.2, s.Small I.mod w) → List.Forall₂ (fun e v => EntW te I.mod w v e) r.1 (linVals y l1 Xs bs)) := by
  induction xs with
  | nil =>
    intro c hc bases Xs bs _ _ _ _ hb hX _ hlen
    cases hX
    cases hb with
    | nil =>
      exact Spec.pure hc.wf ⟨List.Forall₂.nil, fun s hs => by simp at hs⟩
        (fun w _ _ y l1 bs Xs _ _ _ _ h5 h6 _ => by cases h5; cases h6; exact List.Forall₂.nil)
    | cons _ _ => exact Spec.fail fun hH => by simpa using hlen hH
  | cons x xs ih =>
    intro c hc bases Xs bs hch hβζ hαβ hal hb hX hsh hlen
    cases hX with
    | cons hx hX =>
    cases hb with
    | nil => exact Spec.fail fun hH => by simpa using hlen hH
    | cons hb hbs =>
    have sh := hsh x (by simp)
    rw [linLoop]
    refine hbind hc.wf (linInst_spec hte h hc hch hβζ hαβ hal hb hx sh.evals sh.wires sh.sigmas) ?_
    rintro r c1 e1 ⟨hr, hrs⟩
    have hc1 := hc.ext e1
    refine hbind e1.wf (ih hc1 (hch.ext e1) (hβζ.ext e1) (hαβ.ext e1) (hal.ext e1) (hbs.imp fun _ _ g => g.ext e1)
      (hX.imp fun _ _ g => g.ext e1) (fun x hx => hsh x (by simp [hx])) (fun hH => by simpa using hlen hH)) ?_
    rintro s c2 e2 ⟨hs, hss⟩
    refine Spec.pure e2.wf ⟨List.rel_append (hr.imp fun _ _ g => g.ext e2) hs, (hrs.ext e2).append hss⟩ ?_
    intro w _ _ q2 q1 y l1 bs Xs kch kβζ kαβ kal kb kX ss
    cases kX with
    | cons kx kX =>
    cases kb with
    | cons kb kbs =>
    exact List.rel_append (q1 y l1 _ _ kch kβζ kαβ kal kb kx (fun s hs => ss s (by simp [hs])))
      (q2 y l1 _ _ kch kβζ kαβ kal kbs kX (fun s hs => ss s (by simp [hs])))

/-! ## The quotient -/

/-- the pairs of the split quotient behind the first -/
def quotVals (step : ZMod Q) : List G → ZMod Q → List (ZMod Q × G)
  | [], _ => []
  | P :: l, coeff => (coeff * step, -P) :: quotVals step l (coeff * step)

theorem quotLoop_spec (hte : ∀ g, te (-g) = negPt (te g)) (h : Par I Q k) {step : FpElemVar p} {b : ZMod Q}
    (l : List (ℕ × ℕ)) : ∀ {c : Circ p} (_ : Ctx H k c) {coeff : FpElemVar p} {a : ZMod Q} {gs : List G},
    Hol H I.mod b step c → Hol H I.mod a coeff c → List.Forall₂ (fun P g => HolP H te g P c) l gs →
    Spec (quotLoop I.mod step l coeff) c H
      (fun r c' => List.Forall₂ (fun e v => EntH H te I.mod v e c') r (quotVals b gs a))
      (fun r w => ∀ (b a : ZMod Q) (gs : List G), Ew I.mod w b step → Ew I.mod w a coeff →
        List.Forall₂ (fun P g => ptAt w P = te g) l gs →
        List.Forall₂ (fun e v => EntW te I.mod w v e) r (quotVals b gs a)) := by
  induction l with
  | nil =>
    intro c hc coeff a gs _ _ hl
    cases hl
    exact Spec.pure hc.wf List.Forall₂.nil (fun w _ _ b a gs _ _ h2 => by cases h2; exact List.Forall₂.nil)
  | cons P l ih =>
    intro c hc coeff a gs hb ha hl
    cases hl with
    | cons hP hl =>
    rw [quotLoop]
    refine hbind hc.wf (mul_ew h hc ha hb) ?_
    intro co c1 e1 hco
    have hc1 := hc.ext e1
    refine hbind e1.wf (neg_spec hte hc1 (hP.ext e1)) ?_
    intro P' c2 e2 hP'
    have hc2 := hc1.ext e2
    have e12 := e1.trans e2
    refine hbind e2.wf (ih hc2 (hb.ext e12) (hco.ext e2) (hl.imp fun _ _ g => g.ext e12)) ?_
    intro r c3 e3 hr
    refine Spec.pure e3.wf (List.Forall₂.cons ⟨hco.ext (e2.trans e3), hP'.ext e3⟩ hr) ?_
    intro w _ _ q1 q2 q3 b a gs h1 h2 h3
    cases h3 with
    | cons h3 h4 => exact List.Forall₂.cons ⟨q3 _ _ h2 h1, q2 _ h3⟩ (q1 _ _ _ h1 (q3 _ _ h2 h1) h4)

/-- the scalars and bases of the linearization polynomial; `zn` is `zeta^n` -/
def sbVals (ch : Six (ZMod Q)) (zn van l1 : ZMod Q) (Xs : List (InstVal Q G)) (quot : List G) (bs : List (ZMod Q)) :
    List (ZMod Q × G) :=
  linVals ch l1 Xs bs ++ (van, -quot.headD 0) :: quotVals (ch.ζ * ch.ζ * zn) quot.tail van

theorem linSB_spec (hte : ∀ g, te (-g) = negPt (te g)) (h : Par I Q k) {c : Circ p} (hc : Ctx H k c) {ch : ChalVar p}
    {y : Six (ZMod Q)} {ev : FpElemVar p × FpElemVar p × FpElemVar p} {zn van l1 : ZMod Q} {xs : List (InstVar p Q)}
    {bases : List (FpElemVar p)} {Xs : List (InstVal Q G)} {bs : List (ZMod Q)} {quot : List (ℕ × ℕ)} {gs : List G}
    (hch : ChalHol H I.mod y ch c) (hzn : Hol H I.mod zn ev.1 c) (hvan : Hol H I.mod van ev.2.1 c)
    (hl1 : Hol H I.mod l1 ev.2.2 c)
    (hb : List.Forall₂ (fun x z => Hol H I.mod z x c) bases bs) (hX : List.Forall₂ (fun x X => HolI H te I.mod X x c) xs Xs)
    (hq : List.Forall₂ (fun P g => HolP H te g P c) quot gs)
    (hsh : ∀ x ∈ xs, Shape H x) (hlen : H → xs.length = bases.length) (hq0 : H → quot ≠ []) :
    Spec (linSB I ch ev xs quot bases) c H
      (fun r c' => List.Forall₂ (fun e v => EntH H te I.mod v e c') r.1 (sbVals y zn van l1 Xs gs bs) ∧ Sums H Q I.mod r.2 c')
      (fun r w => ∀ (y : Six (ZMod Q)) (zn van l1 : ZMod Q) (bs : List (ZMod Q)) (Xs : List (InstVal Q G)) (gs : List G),
        ChalEw I.mod w y ch → Ew I.mod w zn ev.1 → Ew I.mod w van ev.2.1 → Ew I.mod w l1 ev.2.2 →
        List.Forall₂ (fun x z => Ew I.mod w z x) bases bs → List.Forall₂ (fun x X => InstW te I.mod w X x) xs Xs →
        List.Forall₂ (fun P g => ptAt w P = te g) quot gs →
        (∀ s ∈ r.2, s.Small I.mod w) → List.Forall₂ (fun e v => EntW te I.mod w v e) r.1 (sbVals y zn van l1 Xs gs bs)) := by
  unfold linSB
  refine hbind hc.wf (mul_ew h hc hch.β hch.ζ) ?_
  intro βζ c1 e1 hβζ
  have hc1 := hc.ext e1
  refine hbind e1.wf (mul_ew h hc1 (hch.α.ext e1) (hch.β.ext e1)) ?_
  intro αβ c2 e2 hαβ
  have hc2 := hc1.ext e2
  have x2 := e1.trans e2
  refine hbind e2.wf (mul_ew h hc2 (hch.α2.ext x2) (hl1.ext x2)) ?_
  intro al c3 e3 hal
  have hc3 := hc2.ext e3
  have x3 := x2.trans e3
  refine hbind e3.wf (linLoop_spec hte h xs hc3 (hch.ext x3) (hβζ.ext (e2.trans e3)) (hαβ.ext e3) hal
    (hb.imp fun _ _ g => g.ext x3) (hX.imp fun _ _ g => g.ext x3) hsh hlen) ?_
  rintro r c4 e4 ⟨hr, hrs⟩
  have hc4 := hc3.ext e4
  have x4 := x3.trans e4
  refine hbind e4.wf (mul_ew h hc4 (hch.ζ.ext x4) (hch.ζ.ext x4)) ?_
  intro z2 c5 e5 hz2
  have hc5 := hc4.ext e5
  have x5 := x4.trans e5
  refine hbind e5.wf (mul_ew h hc5 hz2 (hzn.ext x5)) ?_
  intro step c6 e6 hstep
  have hc6 := hc5.ext e6
  have x6 := x5.trans e6
  cases hq with
  | nil => exact Spec.fail fun hH => hq0 hH rfl
  | cons hP hPs =>
  refine hbind e6.wf (neg_spec hte hc6 (hP.ext x6)) ?_
  intro P' c7 e7 hP'
  have hc7 := hc6.ext e7
  have x7 := x6.trans e7
  refine hbind e7.wf (quotLoop_spec hte h _ hc7 (hstep.ext e7) (hvan.ext x7) (hPs.imp fun _ _ g => g.ext x7)) ?_
  intro l c8 e8 hl
  have y7 := e7.trans e8
  have y6 := e6.trans y7
  have y5 := e5.trans y6
  refine Spec.pure e8.wf ⟨List.rel_append (hr.imp fun _ _ g => g.ext y5)
    (List.Forall₂.cons ⟨hvan.ext (x7.trans e8), hP'.ext e8⟩ hl), hrs.ext y5⟩ ?_
  intro w _ _ q8 q7 q6 q5 q4 q3 q2 q1 y zn van l1 bs Xs gs kch kzn kvan kl1 kb kX kq ss
  cases kq with
  | cons kP kPs =>
  exact List.rel_append (q4 y l1 bs Xs kch (q1 _ _ kch.β kch.ζ) (q2 _ _ kch.α kch.β) (q3 _ _ kch.α2 kl1) kb kX ss)
    (List.Forall₂.cons ⟨kvan, q7 _ kP⟩ (q8 _ _ _ (q6 _ _ (q5 _ _ kch.ζ kch.ζ) kzn) kvan kPs))

/-! ## The other commitments -/

/-- the pairs of a list of commitments, from the combiner `b` -/
def commVals (v : ZMod Q) : List G → ZMod Q → List (ZMod Q × G)
  | [], _ => []
  | P :: l, b => (b, P) :: commVals v l (b * v)

theorem addComms_spec (h : Par I Q k) {v : FpElemVar p} {a : ZMod Q} (l : List (ℕ × ℕ)) :
    ∀ {c : Circ p} (_ : Ctx H k c) {b : FpElemVar p} {bv : ZMod Q} {gs : List G}, Hol H I.mod a v c → Hol H I.mod bv b c →
    List.Forall₂ (fun P g => HolP H te g P c) l gs →
    Spec (addComms I.mod v l b) c H
      (fun r c' => List.Forall₂ (fun e x => EntH H te I.mod x e c') r.1 (commVals a gs bv) ∧
        Hol H I.mod (bv * a ^ gs.length) r.2 c')
      (fun r w => ∀ (a bv : ZMod Q) (gs : List G), Ew I.mod w a v → Ew I.mod w bv b →
        List.Forall₂ (fun P g => ptAt w P = te g) l gs →
        List.Forall₂ (fun e x => EntW te I.mod w x e) r.1 (commVals a gs bv) ∧ Ew I.mod w (bv * a ^ gs.length) r.2) := by
  induction l with
  | nil =>
    intro c hc b bv gs _ hb hl
    cases hl
    exact Spec.pure hc.wf ⟨List.Forall₂.nil, by simpa using hb⟩
      (fun w _ _ a bv gs _ h1 h2 => by cases h2; exact ⟨List.Forall₂.nil, by simpa using h1⟩)
  | cons P l ih =>
    intro c hc b bv gs ha hb hl
    cases hl with
    | cons hP hl =>
    rw [addComms]
    refine hbind hc.wf (mul_ew h hc hb ha) ?_
    intro b' c1 e1 hb'
    have hc1 := hc.ext e1
    refine hbind e1.wf (ih hc1 (ha.ext e1) hb' (hl.imp fun _ _ g => g.ext e1)) ?_
    rintro r c2 e2 ⟨hr, hn⟩
    have e12 := e1.trans e2
    have ee : ∀ (x y : ZMod Q) (n : ℕ), x * y ^ (n + 1) = x * y * y ^ n := fun x y n => by ring
    refine Spec.pure e2.wf ⟨List.Forall₂.cons ⟨hb.ext e12, hP.ext e12⟩ hr, by rw [List.length_cons, ee]; exact hn⟩ ?_
    intro w _ _ q1 q2 a bv gs h1 h2 h3
    cases h3 with
    | cons h3 h4 =>
      obtain ⟨g1, g2⟩ := q1 _ _ _ h1 (q2 _ _ h2 h1) h4
      exact ⟨List.Forall₂.cons ⟨h2, h3⟩ g1, by rw [List.length_cons, ee]; exact g2⟩

/-- the pairs of the commitments that are opened -/
def aggVals (v : ZMod Q) : List (InstVal Q G) → ZMod Q → ZMod Q → List (ZMod Q × G)
  | [], _, _ => []
  | X :: Xs, vb, ub =>
    commVals v X.wires vb ++
    commVals v (X.sigmas.take (X.wires.length - 1)) (vb * v ^ X.wires.length) ++
    commVals v [X.z] ub ++
    aggVals v Xs (vb * v ^ X.wires.length * v ^ (X.sigmas.take (X.wires.length - 1)).length) (ub * v ^ 1)

theorem aggLoop_spec (h : Par I Q k) {v : FpElemVar p} {a : ZMod Q} (xs : List (InstVar p Q)) :
    ∀ {c : Circ p} (_ : Ctx H k c) {vb ub : FpElemVar p} {b u : ZMod Q} {Xs : List (InstVal Q G)}, Hol H I.mod a v c →
    Hol H I.mod b vb c → Hol H I.mod u ub c → List.Forall₂ (fun x X => HolI H te I.mod X x c) xs Xs →
    (∀ x ∈ xs, Shape H x) →
    Spec (aggLoop I.mod v xs vb ub) c H
      (fun r c' => List.Forall₂ (fun e x => EntH H te I.mod x e c') r (aggVals a Xs b u))
      (fun r w => ∀ (a b u : ZMod Q) (Xs : List (InstVal Q G)), Ew I.mod w a v → Ew I.mod w b vb → Ew I.mod w u ub →
        List.Forall₂ (fun x X => InstW te I.mod w X x) xs Xs →
        List.Forall₂ (fun e x => EntW te I.mod w x e) r (aggVals a Xs b u)) := by
  induction xs with
  | nil =>
    intro c hc vb ub b u Xs _ _ _ hX _
    cases hX
    exact Spec.pure hc.wf List.Forall₂.nil (fun w _ _ a b u Xs _ _ _ h2 => by cases h2; exact List.Forall₂.nil)
  | cons x xs ih =>
    intro c hc vb ub b u Xs ha hb hu hX hsh
    cases hX with
    | cons hx hX =>
    have hwl := hx.wires.length_eq
    rw [aggLoop]
    refine hbind hc.wf (addComms_spec h x.wires hc ha hb hx.wires) ?_
    rintro r1 c1 e1 ⟨h1, n1⟩
    have hc1 := hc.ext e1
    split
    · rename_i h0
      exact Spec.fail fun hH => (hsh x (by simp)).wires hH h0
    refine hbind e1.wf (addComms_spec h _ hc1 (ha.ext e1) n1 (List.forall₂_take (x.wires.length - 1) (hx.ext e1).sigmas)) ?_
    rintro r2 c2 e2 ⟨h2, n2⟩
    have hc2 := hc1.ext e2
    have x2 := e1.trans e2
    refine hbind e2.wf (addComms_spec h [x.z] hc2 (ha.ext x2) (hu.ext x2) (.cons (hx.z.ext x2) .nil)) ?_
    rintro r3 c3 e3 ⟨h3, n3⟩
    have hc3 := hc2.ext e3
    have x3 := x2.trans e3
    refine hbind e3.wf (ih hc3 (ha.ext x3) (n2.ext e3) n3 (hX.imp fun _ _ g => g.ext x3)
      (fun x hx => hsh x (by simp [hx]))) ?_
    intro r c4 e4 hr
    have y3 := e3.trans e4
    have y2 := e2.trans y3
    refine Spec.pure e4.wf ?_ ?_
    · rw [aggVals, ← hwl]
      rw [← hwl] at h2 hr
      exact List.rel_append (List.rel_append (List.rel_append (h1.imp fun _ _ g => g.ext y2) (h2.imp fun _ _ g => g.ext y3))
        (h3.imp fun _ _ g => g.ext e4)) hr
    · intro w _ _ q4 q3 q2 q1 a b u Xs ka kb ku kX
      cases kX with
      | cons kx kX =>
      have kwl := kx.wires.length_eq
      obtain ⟨g1, m1⟩ := q1 _ _ _ ka kb kx.wires
      obtain ⟨g2, m2⟩ := q2 _ _ _ ka m1 (List.forall₂_take (x.wires.length - 1) kx.sigmas)
      obtain ⟨g3, m3⟩ := q3 _ _ _ ka ku (.cons kx.z .nil)
      have g4 := q4 _ _ _ _ ka m2 m3 kX
      rw [aggVals, ← kwl]
      rw [← kwl] at g2 g4
      exact List.rel_append (List.rel_append (List.rel_append g1 g2) g3) g4

end

end Verif.Circuit.VerifierAgg
