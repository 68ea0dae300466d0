import Verif.Util.SwToTe
import Verif.Circuit.SwToTe
import Verif.Props.EmulatedTeProps
import Verif.Props.Ecc

/-!
# Conversion from short Weierstrass to twisted Edwards form (property C77)

The source is the group of points of `y² = x³ + 1` over the base field of BLS12-377 (Mathlib's group of points, `enc` is
the crate's representation), the target the curve `-x² + y² = 1 + d x² y²` with the `d` of `ark-bls12-377`. `none` is a
panic.

* Every result is on the target curve, and different points have different results.
* On points of odd order (`G1` is such a group: its order is an odd prime) the conversion does not panic, and it takes
  sums to sums; the denominators of the Edwards addition are then never zero.
* So the emulated addition `emulated_te_ecc_add` does not panic on converted points of `G1`, and the native gadget
  `ecc_add` computes the converted sum.
* The conversion panics for some curve points outside `G1`, and for every finite point with the constants that the
  crate has for the other three fields.
-/

namespace Verif.Props.Emulated

open Verif.Circuit Verif.Props.Circuit Verif.Curves Verif.Props.Ecc WeierstrassCurve.Affine Rescue

/-- the curve of `G1` of BLS12-377, `y² = x³ + 1` -/
abbrev G377 := (curve p_fq377 0 1).Point

/-- the coefficient `d` -/
theorem d377_eq : g1Bls377.d = ((d377 : ℕ) : ZMod p_fq377) := by
  unfold g1Bls377 d377
  norm_cast

/-- the constants of the crate meet the conditions under which the map is a homomorphism -/
theorem params377 : TeParams (q := p_fq377) 0 1 (conv377.s : ℕ) (-1) (conv377.beta : ℕ) (d377 : ℕ) := by
  have k1 : ((conv377.s ^ 2 * 3 : ℕ) : ZMod p_fq377) = ((1 : ℕ) : ZMod p_fq377) := by
    rw [ZMod.natCast_eq_natCast_iff]; unfold Nat.ModEq; decide +kernel
  have k2 : ((conv377.beta ^ 2 + 6 * conv377.s : ℕ) : ZMod p_fq377) = ((3 : ℕ) : ZMod p_fq377) := by
    rw [ZMod.natCast_eq_natCast_iff]; unfold Nat.ModEq; decide +kernel
  have k3 : ((d377 * conv377.beta ^ 2 + 3 + 6 * conv377.s : ℕ) : ZMod p_fq377) = ((0 : ℕ) : ZMod p_fq377) := by
    rw [ZMod.natCast_eq_natCast_iff]; unfold Nat.ModEq; decide +kernel
  push_cast at k1 k2 k3
  refine ⟨by ring, by linear_combination k1, by linear_combination k2, by linear_combination k3, ?_, ?_⟩
  · have : ((2 : ℕ) : ZMod p_fq377) ≠ 0 := by rw [ne_eq, ZMod.natCast_eq_zero_iff]; decide +kernel
    exact_mod_cast this
  · rw [ne_eq, ZMod.natCast_eq_zero_iff]; decide +kernel

theorem negAlpha377 : ((conv377.negAlpha : ℕ) : ZMod p_fq377) = 1 := by
  have : conv377.negAlpha = 1 := by decide +kernel
  rw [this, Nat.cast_one]

/-- the conversion in terms of the map -/
theorem swToTe_eq (P : G377) (T : ZMod p_fq377 × ZMod p_fq377) :
    swToTe conv377 (enc P) = some T ↔
      TeDefined ((conv377.s : ℕ) : ZMod p_fq377) (-1) P ∧ toTe (conv377.s : ℕ) (-1) (conv377.beta : ℕ) P = T := by
  cases P with
  | zero =>
    rw [← Point.zero_def, enc_zero]
    show some ((0 : ZMod p_fq377), (1 : ZMod p_fq377)) = some T ↔ True ∧ ((0 : ZMod p_fq377), (1 : ZMod p_fq377)) = T
    simp
  | some x y h =>
    rw [enc_some]
    unfold swToTe fdiv TeDefined toTe teMap
    simp only [Bool.false_eq_true, if_false, ZMod.natCast_zmod_val, negAlpha377, sub_neg_eq_add]
    have hs := params377.s0
    by_cases hy : y = 0
    · simp [hy]
    · have : ((conv377.s : ℕ) : ZMod p_fq377) * y ≠ 0 := mul_ne_zero hs hy
      rw [if_neg this]
      by_cases hu : ((conv377.s : ℕ) : ZMod p_fq377) * (x + 1) + 1 = 0
      · simp [hu]
      · simp [hu, hy, div_eq_mul_inv]

/-- **C77, on the curve**: what the conversion returns is on the twisted Edwards curve. -/
theorem C77_on_curve (P : G377) (T : ZMod p_fq377 × ZMod p_fq377) (h : swToTe conv377 (enc P) = some T) :
    EdOn g1Bls377.a g1Bls377.d T := by
  obtain ⟨hd, rfl⟩ := (swToTe_eq P T).1 h
  rw [d377_eq]
  exact params377.toTe_on hd

/-- **C77, injective**: no two curve points are converted to the same point. -/
theorem C77_injective (P Q : G377) (T : ZMod p_fq377 × ZMod p_fq377) (h1 : swToTe conv377 (enc P) = some T)
    (h2 : swToTe conv377 (enc Q) = some T) : P = Q := by
  obtain ⟨d1, e1⟩ := (swToTe_eq P T).1 h1
  obtain ⟨d2, e2⟩ := (swToTe_eq Q T).1 h2
  exact params377.toTe_inj d1 d2 (e1.trans e2.symm)

/-- **C77, infinity and inverses**: infinity is converted to `(0, 1)`, and only infinity; the opposite point is
converted to the inverse (also as far as panics go). -/
theorem C77_inverse (P : G377) :
    (swToTe conv377 (enc P) = some ((0 : ZMod p_fq377), (1 : ZMod p_fq377)) ↔ P = 0) ∧
    swToTe conv377 (enc (-P)) = (swToTe conv377 (enc P)).map (teInverse (q := p_fq377)) := by
  constructor
  · constructor
    · intro h
      exact C77_injective P 0 _ h rfl
    · rintro rfl
      rfl
  · have key : ∀ P : G377, TeDefined ((conv377.s : ℕ) : ZMod p_fq377) (-1) P →
        TeDefined ((conv377.s : ℕ) : ZMod p_fq377) (-1) (-P) := by
      intro P h
      cases P with
      | zero => rw [← Point.zero_def, neg_zero]; trivial
      | some x y hn =>
        obtain ⟨h', e⟩ := neg_point hn
        rw [e]
        exact ⟨neg_ne_zero.2 h.1, h.2⟩
    cases h : swToTe (q := p_fq377) conv377 (enc P) with
    | none =>
      cases h' : swToTe (q := p_fq377) conv377 (enc (-P)) with
      | none => rfl
      | some T =>
        exfalso
        have := key _ ((swToTe_eq _ T).1 h').1
        rw [neg_neg] at this
        rw [(swToTe_eq P _).2 ⟨this, rfl⟩] at h
        cases h
    | some T =>
      obtain ⟨d1, e1⟩ := (swToTe_eq P T).1 h
      refine (swToTe_eq _ _).2 ⟨key P d1, ?_⟩
      rw [params377.toTe_neg, e1]
      rfl

/-- **C77, sums**: where nothing is undefined, sums are converted to sums. -/
theorem C77_add (P Q : G377) (S T U : ZMod p_fq377 × ZMod p_fq377) (h1 : swToTe conv377 (enc P) = some S)
    (h2 : swToTe conv377 (enc Q) = some T) (h3 : swToTe conv377 (enc (P + Q)) = some U)
    (hD : EdDef g1Bls377.d S T) : edAdd g1Bls377.a g1Bls377.d S T = U := by
  obtain ⟨d1, rfl⟩ := (swToTe_eq P S).1 h1
  obtain ⟨d2, rfl⟩ := (swToTe_eq Q T).1 h2
  obtain ⟨d3, rfl⟩ := (swToTe_eq (P + Q) U).1 h3
  rw [d377_eq] at hD ⊢
  exact params377.toTe_add d1 d2 d3 hD

/-- **C77, points of odd order**: the conversion does not panic, and sums are converted to sums without any further
condition. -/
theorem C77_odd_order (P Q : G377) (hP : OddOrder P) (hQ : OddOrder Q) :
    ∃ S T : ZMod p_fq377 × ZMod p_fq377, swToTe conv377 (enc P) = some S ∧ swToTe conv377 (enc Q) = some T ∧
      EdDef g1Bls377.d S T ∧ swToTe conv377 (enc (P + Q)) = some (edAdd g1Bls377.a g1Bls377.d S T) := by
  rw [d377_eq]
  exact ⟨_, _, (swToTe_eq P _).2 ⟨params377.odd_defined hP, rfl⟩, (swToTe_eq Q _).2 ⟨params377.odd_defined hQ, rfl⟩,
    params377.odd_def hP hQ, (swToTe_eq _ _).2 ⟨params377.odd_defined (hP.add hQ), (params377.odd_add hP hQ).symm⟩⟩

/-- **C77, emulated addition**: for converted points of odd order `emulated_te_ecc_add` stores the converted sum, it
does not panic. -/
theorem C77_emulated (P Q : G377) (hP : OddOrder P) (hQ : OddOrder Q) :
    ∃ S T U : ZMod p_fq377 × ZMod p_fq377, swToTe conv377 (enc P) = some S ∧ swToTe conv377 (enc Q) = some T ∧
      swToTe conv377 (enc (P + Q)) = some U ∧ teSum p_fq377 d377 (teEnc S) (teEnc T) = some (teEnc U) := by
  obtain ⟨S, T, h1, h2, hD, h3⟩ := C77_odd_order P Q hP hQ
  refine ⟨S, T, _, h1, h2, h3, ?_⟩
  rw [d377_eq] at hD ⊢
  have := teSum_eq hD
  rw [ZMod.val_cast_of_lt (by decide +kernel)] at this
  exact this

/-- the group of the converted points of odd order -/
def te377 : EdGroup (ZMod p_fq377) := oddGroup params377

/-- **C77, native addition**: for circuits over the base field of BLS12-377 and points that are converted points of odd
order, the output of `ecc_add` is the converted sum. -/
theorem C77_native (A B : ℕ × ℕ) :
    Correct (eccAdd g1Bls377 A B) (Dom [] [A, B])
      (fun w => ∃ P Q : G377, OddOrder P ∧ OddOrder Q ∧ swToTe conv377 (enc P) = some (pt w A) ∧
        swToTe conv377 (enc Q) = some (pt w B))
      (fun v w => ∀ P Q : G377, OddOrder P → OddOrder Q → swToTe conv377 (enc P) = some (pt w A) →
        swToTe conv377 (enc Q) = some (pt w B) → swToTe conv377 (enc (P + Q)) = some (pt w v)) := by
  have h := C31_add_group g1Bls377 te377 rfl d377_eq.symm A B
  have conv : ∀ {P : G377} {T : ZMod p_fq377 × ZMod p_fq377}, OddOrder P → swToTe conv377 (enc P) = some T →
      te377.mem T := fun {P T} ho e => ⟨P, ho, ((swToTe_eq P T).1 e).2⟩
  refine ⟨h.wf, fun c hc hdm v c' hm pi w hs => ?_, fun c hc hdm v c' hm pi w hs hp => ?_,
    fun c hc hdm pi hs hp => ?_, h.shape⟩
  · obtain ⟨g1, g2⟩ := h.sound c hc hdm v c' hm pi w hs
    refine ⟨g1, fun P Q hP hQ eP eQ => ?_⟩
    have e := g2 ⟨_, conv hP eP⟩ ⟨_, conv hQ eQ⟩ rfl rfl
    rw [e]
    obtain ⟨S, T, s1, s2, -, s3⟩ := C77_odd_order P Q hP hQ
    rw [eP] at s1
    rw [eQ] at s2
    cases s1
    cases s2
    rw [s3, d377_eq]
    rfl
  · obtain ⟨P, Q, hP, hQ, eP, eQ⟩ := hp
    exact h.complete c hc hdm v c' hm pi w hs ⟨conv hP eP, conv hQ eQ⟩
  · obtain ⟨P, Q, hP, hQ, eP, eQ⟩ := hp
    exact h.honest c hc hdm pi hs ⟨conv hP eP, conv hQ eQ⟩

/-! ## Panics -/

/-- a point of order 4 -/
def x4 : ℕ := 228097355113300204138531148905234651262148041026195375645000724271212049151994375092458297304264351187709081232383
def y4 : ℕ := 183248120370312093914300842873964025714947238860092572013797503794978351907865142483153210499531168963665210033314

/-- **C77 is refuted on the whole curve**: the curve has points, of order 2 and of order 4, for which the conversion
panics. -/
theorem C77_panic_counterexample :
    (∃ P : G377, P ≠ 0 ∧ P + P = 0 ∧ swToTe (q := p_fq377) conv377 (enc P) = none) ∧
    (∃ P : G377, P + P ≠ 0 ∧ swToTe (q := p_fq377) conv377 (enc P) = none) := by
  have h2 : p_fq377 ≠ 2 := by decide +kernel
  have h3 : (3 : ZMod p_fq377) ≠ 0 := by
    have : ((3 : ℕ) : ZMod p_fq377) ≠ 0 := by rw [ne_eq, ZMod.natCast_eq_zero_iff]; decide +kernel
    exact_mod_cast this
  have hn : (curve p_fq377 0 1).Nonsingular (-1) 0 := by
    rw [nonsingular_iff']
    refine ⟨?_, Or.inl ?_⟩
    · rw [equation_iff]
      simp [curve]
      ring
    · simp [curve, h3]
  have hy : ((y4 : ℕ) : ZMod p_fq377) ≠ 0 := by rw [ne_eq, ZMod.natCast_eq_zero_iff]; decide +kernel
  have hn4 : (curve p_fq377 0 1).Nonsingular (x4 : ℕ) (y4 : ℕ) := by
    refine nonsingular_of h2 ?_ hy
    have : ((y4 ^ 2 : ℕ) : ZMod p_fq377) = ((x4 ^ 3 + 1 : ℕ) : ZMod p_fq377) := by
      rw [ZMod.natCast_eq_natCast_iff]; unfold Nat.ModEq; decide +kernel
    push_cast at this
    linear_combination this
  have none_of : ∀ P : G377, ¬ TeDefined ((conv377.s : ℕ) : ZMod p_fq377) (-1) P →
      swToTe (q := p_fq377) conv377 (enc P) = none := by
    intro P hP
    cases h : swToTe (q := p_fq377) conv377 (enc P) with
    | none => rfl
    | some T => exact absurd ((swToTe_eq P T).1 h).1 hP
  refine ⟨⟨.some _ _ hn, Point.some_ne_zero _, sum_opposite hn hn (by simp), none_of _ fun h => h.1 rfl⟩,
    .some _ _ hn4, ?_, none_of _ fun h => h.2 ?_⟩
  · have hne : ((y4 : ℕ) : ZMod p_fq377) ≠ -((y4 : ℕ) : ZMod p_fq377) := fun e =>
      mul_ne_zero params377.two hy (by linear_combination e)
    obtain ⟨x, y, hn, e, -⟩ := sum_double hn4 hne
    rw [e]
    exact Point.some_ne_zero _
  · have : ((conv377.s * (x4 + 1) + 1 : ℕ) : ZMod p_fq377) = ((0 : ℕ) : ZMod p_fq377) := by
      rw [ZMod.natCast_eq_natCast_iff]; unfold Nat.ModEq; decide +kernel
    push_cast at this
    linear_combination this

/-- **C77, other fields**: with the constants for the base fields of BN254, BLS12-381 and BW6-761 the conversion panics
for every point other than infinity, whatever the field. -/
theorem C77_dummy_counterexample (q : ℕ) [Fact q.Prime] (p : SwPoint) (h : p.inf = false) :
    swToTe (q := q) convDummy p = none := by
  unfold swToTe fdiv
  simp [h, convDummy]

/-! ## Examples -/

/-- the point `(0, 1)`, of order 3 -/
def t377 : G377 := .some 0 1 (nonsingular_of (by decide +kernel) (by ring) one_ne_zero)

theorem t377_odd : OddOrder t377 := by
  refine ⟨3, by decide, ?_⟩
  have hne : (1 : ZMod p_fq377) ≠ -1 := fun e => params377.two (by linear_combination e)
  have hn : (curve p_fq377 0 1).Nonsingular 0 1 := nonsingular_of (by decide +kernel) (by ring) one_ne_zero
  obtain ⟨x, y, hn', e, hs, -⟩ := sum_double hn hne
  obtain ⟨hx, hy⟩ := hs 0 (by ring)
  have hx : x = 0 := by rw [hx]; ring
  subst hx
  have hy : y = -1 := by rw [hy]; ring
  subst hy
  have : t377 + t377 + t377 = 0 := by
    show Point.some 0 1 hn + Point.some 0 1 hn + Point.some 0 1 hn = 0
    rw [e]
    exact sum_opposite hn' hn rfl
  rw [← this, show (3 : ℕ) = 1 + 1 + 1 from rfl, add_smul, add_smul, one_smul]

example : t377 ≠ 0 ∧ OddOrder t377 ∧ t377 + t377 ≠ 0 :=
  ⟨Point.some_ne_zero _, t377_odd, fun h => Point.some_ne_zero _ (t377_odd.two h)⟩

/-- the generator of `G1` in short Weierstrass form is converted to the generator in twisted Edwards form -/
example : swToTe (q := p_fq377) conv377
    ⟨81937999373150964239938255573465948239988671502647976594219695644855304257327692006745978603320413799295628339695,
      241266749859715473739788878240585681733927191168601896383759122102112907357779751001206799952863815012735208165030,
      false⟩ = some g1G := by
  decide +kernel

end Verif.Props.Emulated
