import Verif.Circuit.VerifierEval
import Verif.Plonk.Verifier

/-! # Public inputs and constant term in the verifier circuit -/

set_option linter.unusedSectionVars false

namespace Verif.Circuit.VerifierPoly

open Verif.Circuit Verif.Conv

variable {p : ℕ} [hp : Fact p.Prime] {Q : ℕ} [hQ : Fact Q.Prime] {I : Info p} {k : ℕ} {H : Prop}

theorem piStep_spec (h : Par I Q k) {c : Circ p} (hc : Ctx H k c) {ζ van : FpElemVar p} {a b : ZMod Q}
    (hζ : Hol H I.mod a ζ c) (hv : Hol H I.mod b van c) {ζr vanr : ZMod Q} (hζr : H → ζr = a) (hvr : H → vanr = b)
    (gi vi : ZMod Q) (hg : H → a ≠ gi) :
    Spec (piStep I ζ van ζr vanr gi vi) c H
      (fun v c' => Hol H I.mod (b * vi * (a - gi)⁻¹) v c')
      (fun v w => ζ.Small I.mod w → van.Small I.mod w → v.Small I.mod w ∧
        El Q I.mod w v * (El Q I.mod w ζ - gi) = El Q I.mod w van * vi) := by
  unfold piStep
  refine constQ_bind h ?_
  intro vE hvE
  refine constQ_bind h ?_
  intro gE hgE
  refine Spec.guard (fun hH h0 => ?_) ?_
  · rw [hζr hH] at h0
    exact hg hH (sub_eq_zero.1 h0)
  intro _
  refine hbind hc.wf (newElem_spec h hc (a := a - gi) (fun hH => by rw [hζr hH])) ?_
  intro dv c1 e1 hdv
  have hc1 := hc.ext e1
  refine hbind e1.wf (addConst_spec h hc1 hdv hgE) ?_
  intro ζRec c2 e2 hζRec
  have hc2 := hc1.ext e2
  refine hbind e2.wf (eq_spec hc2 (hζ.ext (e1.trans e2)) hζRec (fun _ => by ring)) ?_
  intro _ c3 e3 _
  have hc3 := hc2.ext e3
  refine hbind e3.wf (newElem_spec h hc3 (a := b * vi * (a - gi)⁻¹) (fun hH => by rw [hζr hH, hvr hH])) ?_
  intro lv c4 e4 hlv
  have hc4 := hc3.ext e4
  refine hbind e4.wf (mul_spec h hc4 hlv (hdv.ext (e2.trans (e3.trans e4)))) ?_
  intro left c5 e5 hleft
  have hc5 := hc4.ext e5
  refine hbind e5.wf (mulConst_spec h hc5 (hv.ext (e1.trans (e2.trans (e3.trans (e4.trans e5))))) hvE) ?_
  intro right c6 e6 hright
  have hc6 := hc5.ext e6
  refine hbind e6.wf (eq_spec hc6 (hleft.ext e6) hright (fun hH => ?_)) ?_
  · have : a - gi ≠ 0 := sub_ne_zero.2 (hg hH)
    field_simp
  intro _ c7 e7 _
  refine Spec.pure e7.wf (hlv.ext (e5.trans (e6.trans e7))) ?_
  intro w _ _ q1 q2 q3 q4 q5 q6 q7 sζ sv
  have v1 := diff_eq h sζ q7 q5 q6
  obtain ⟨s1, v2⟩ := q3 q4 q7
  obtain ⟨s2, v3⟩ := q2 sv
  have v4 : El Q I.mod w left = El Q I.mod w right := by unfold El; rw [num_congr q1]
  refine ⟨q4, ?_⟩
  rw [← v1, ← v2, v4, v3]

/-- the value of a Lagrange polynomial the builder stores -/
def lagVal (n : ℕ) (g ζ van : ZMod Q) (i : ℕ) : ZMod Q := van * (g ^ i * (n : ZMod Q)⁻¹) * (ζ - g ^ i)⁻¹

theorem piLoop_spec (h : Par I Q k) (n : ℕ) (g : ZMod Q) {ζ van : FpElemVar p} {a b : ZMod Q} {ζr vanr : ZMod Q}
    (hζr : H → ζr = a) (hvr : H → vanr = b) (is : List ℕ) (hg : H → ∀ i ∈ is, a ≠ g ^ i) :
    ∀ {c : Circ p} (_ : Ctx H k c) (_ : Hol H I.mod a ζ c) (_ : Hol H I.mod b van c),
    Spec (piLoop I n g ζ van ζr vanr is) c H
      (fun vs c' => List.Forall₂ (fun v z => Hol H I.mod z v c') vs (is.map (lagVal n g a b)))
      (fun vs w => ζ.Small I.mod w → van.Small I.mod w → (∀ v ∈ vs, v.Small I.mod w) ∧
        List.Forall₂ (fun l i => l * (El Q I.mod w ζ - g ^ i) = El Q I.mod w van * (g ^ i * (n : ZMod Q)⁻¹))
          (vs.map (El Q I.mod w)) is) := by
  induction is with
  | nil =>
    intro c hc hζ hv
    exact Spec.pure hc.wf (by simp) (fun w _ _ _ _ => by simp)
  | cons i is ih =>
    intro c hc hζ hv
    rw [piLoop]
    refine hbind hc.wf (piStep_spec h hc hζ hv hζr hvr (g ^ i) (g ^ i * (n : ZMod Q)⁻¹)
      (fun hH => hg hH i (by simp))) ?_
    intro l c1 e1 hl
    refine hbind e1.wf (ih (fun hH j hj => hg hH j (by simp [hj])) (hc.ext e1) (hζ.ext e1) (hv.ext e1)) ?_
    intro ls c2 e2 hls
    refine Spec.pure e2.wf ?_ ?_
    · rw [List.map_cons]
      exact List.Forall₂.cons (hl.ext e2) hls
    · intro w _ _ q1 q2 sζ sv
      obtain ⟨s1, v1⟩ := q1 sζ sv
      obtain ⟨s2, v2⟩ := q2 sζ sv
      refine ⟨?_, ?_⟩
      · intro v hv
        rcases List.mem_cons.1 hv with rfl | hv
        · exact s2
        · exact s1 v hv
      · rw [List.map_cons]
        exact List.Forall₂.cons v2 v1

/-- the terms of a sum over pairs of pairs -/
def prods {F : Type} [Mul F] (l : List ((F × F) × (F × F))) : List F :=
  l.flatMap fun x => [x.1.1 * x.1.2, x.2.1 * x.2.2]

theorem piTerms_spec (h : Par I Q k) (l : List ((FpElemVar p × FpElemVar p) × (FpElemVar p × FpElemVar p))) :
    ∀ {c : Circ p} (_ : Ctx H k c) {vs : List ((ZMod Q × ZMod Q) × (ZMod Q × ZMod Q))},
    List.Forall₂ (fun x z => Hol H I.mod z.1.1 x.1.1 c ∧ Hol H I.mod z.1.2 x.1.2 c ∧ Hol H I.mod z.2.1 x.2.1 c ∧
      Hol H I.mod z.2.2 x.2.2 c) l vs →
    Spec (piTerms I.mod l) c H
      (fun ts c' => List.Forall₂ (fun v z => Hol H I.mod z v c') ts (prods vs))
      (fun ts w => (∀ x ∈ l, x.1.1.Small I.mod w ∧ x.1.2.Small I.mod w ∧ x.2.1.Small I.mod w ∧ x.2.2.Small I.mod w) →
        (∀ t ∈ ts, t.Small I.mod w) ∧
        ts.map (El Q I.mod w) = prods (l.map fun x => ((El Q I.mod w x.1.1, El Q I.mod w x.1.2),
          (El Q I.mod w x.2.1, El Q I.mod w x.2.2)))) := by
  induction l with
  | nil =>
    intro c hc vs hl
    cases hl
    exact Spec.pure hc.wf (by simp [prods]) (fun w _ _ _ => by simp [prods])
  | cons x l ih =>
    intro c hc vs hl
    obtain ⟨xa, xb⟩ := x
    cases hl with
    | cons hx hl =>
    rename_i z vs
    obtain ⟨h1, h2, h3, h4⟩ := hx
    rw [piTerms]
    refine hbind hc.wf (mul_spec h hc h1 h2) ?_
    intro s c1 e1 hs
    have hc1 := hc.ext e1
    refine hbind e1.wf (mul_spec h hc1 (h3.ext e1) (h4.ext e1)) ?_
    intro t c2 e2 ht
    have hc2 := hc1.ext e2
    refine hbind e2.wf (ih hc2 (hl.imp fun x z g => ⟨g.1.ext (e1.trans e2), g.2.1.ext (e1.trans e2),
      g.2.2.1.ext (e1.trans e2), g.2.2.2.ext (e1.trans e2)⟩)) ?_
    intro r c3 e3 hr
    refine Spec.pure e3.wf ?_ ?_
    · simp only [prods, List.flatMap_cons, List.cons_append, List.nil_append]
      exact List.Forall₂.cons (hs.ext (e2.trans e3)) (List.Forall₂.cons (ht.ext e3) hr)
    · intro w _ _ q1 q2 q3 hsm
      obtain ⟨a1, a2, a3, a4⟩ := hsm (xa, xb) (by simp)
      obtain ⟨s1, v1⟩ := q1 (fun y hy => hsm y (by simp [hy]))
      obtain ⟨s2, v2⟩ := q2 a3 a4
      obtain ⟨s3, v3⟩ := q3 a1 a2
      refine ⟨?_, ?_⟩
      · intro v hv
        simp only [List.mem_cons] at hv
        rcases hv with rfl | rfl | hv
        · exact s3
        · exact s2
        · exact s1 v hv
      · simp only [List.map_cons, prods, List.flatMap_cons, List.cons_append, List.nil_append]
        rw [v3, v2, v1]
        rfl

/-- the sum of the terms of the public inputs -/
def piPairs {F : Type} (ls pis : List F) : List ((F × F) × (F × F)) :=
  let len := pis.length / 2
  ((ls.take len).zip (pis.take len)).zip ((ls.reverse.take len).zip ((pis.drop len).take len))

theorem forall₂_zip {A B C D : Type} {R : A → B → Prop} {S : C → D → Prop} {l1 : List A} {l2 : List B}
    (h : List.Forall₂ R l1 l2) : ∀ {l3 : List C} {l4 : List D}, List.Forall₂ S l3 l4 →
    List.Forall₂ (fun x y => R x.1 y.1 ∧ S x.2 y.2) (l1.zip l3) (l2.zip l4) := by
  induction h with
  | nil => intro l3 l4 _; simp
  | cons h1 _ ih =>
    intro l3 l4 h'
    cases h' with
    | nil => simp
    | cons h2 h3 => exact List.Forall₂.cons ⟨h1, h2⟩ (ih h3)

theorem piPairs_hol {c : Circ p} {ls pis : List (FpElemVar p)} {as bs : List (ZMod Q)}
    (h1 : List.Forall₂ (fun v z => Hol H I.mod z v c) ls as) (h2 : List.Forall₂ (fun v z => Hol H I.mod z v c) pis bs) :
    List.Forall₂ (fun x z => Hol H I.mod z.1.1 x.1.1 c ∧ Hol H I.mod z.1.2 x.1.2 c ∧ Hol H I.mod z.2.1 x.2.1 c ∧
      Hol H I.mod z.2.2 x.2.2 c) (piPairs ls pis) (piPairs as bs) := by
  unfold piPairs
  rw [h2.length_eq]
  refine (forall₂_zip (forall₂_zip (List.forall₂_take _ h1) (List.forall₂_take _ h2))
    (forall₂_zip (List.forall₂_take _ (List.forall₂_reverse_iff.2 h1))
      (List.forall₂_take _ (List.forall₂_drop _ h2)))).imp ?_
  rintro x z ⟨⟨g1, g2⟩, g3, g4⟩
  exact ⟨g1, g2, g3, g4⟩

theorem piPairs_map {F G : Type} (f : F → G) (ls pis : List F) :
    (piPairs ls pis).map (fun x => ((f x.1.1, f x.1.2), (f x.2.1, f x.2.2))) = piPairs (ls.map f) (pis.map f) := by
  unfold piPairs
  rw [List.length_map]
  simp only [← List.map_take, ← List.map_drop, ← List.map_reverse]
  rw [List.zip_map, List.zip_map, List.zip_map]
  rfl

theorem piPairs_mem {F : Type} {ls pis : List F} {x : (F × F) × (F × F)} (h : x ∈ piPairs ls pis) :
    x.1.1 ∈ ls ∧ x.1.2 ∈ pis ∧ x.2.1 ∈ ls ∧ x.2.2 ∈ pis := by
  unfold piPairs at h
  obtain ⟨⟨a, b⟩, d, e⟩ := x
  obtain ⟨h1, h2⟩ := List.of_mem_zip h
  obtain ⟨h3, h4⟩ := List.of_mem_zip h1
  obtain ⟨h5, h6⟩ := List.of_mem_zip h2
  exact ⟨List.mem_of_mem_take h3, List.mem_of_mem_take h4, List.mem_reverse.1 (List.mem_of_mem_take h5),
    List.mem_of_mem_drop (List.mem_of_mem_take h6)⟩

theorem prods_length {F : Type} [Mul F] (l : List ((F × F) × (F × F))) : (prods l).length = 2 * l.length := by
  induction l with
  | nil => rfl
  | cons x l ih =>
    simp only [prods, List.flatMap_cons, List.length_append, List.length_cons, List.length_nil] at ih ⊢
    omega

theorem piPairs_length {F : Type} (ls pis : List F) : 2 * (piPairs ls pis).length ≤ pis.length := by
  unfold piPairs
  simp only [List.length_zip, List.length_take]
  omega

/-- the indices of the public inputs -/
def piIdx (n len : ℕ) : List ℕ := List.range len ++ List.range' (n - len) len

/-- what the public input polynomial may be -/
def PiRel (n : ℕ) (g ζ van : ZMod Q) (pis : List (ZMod Q)) (v : ZMod Q) : Prop :=
  ∃ ls : List (ZMod Q), List.Forall₂ (fun l i => l * (ζ - g ^ i) = van * (g ^ i * (n : ZMod Q)⁻¹)) ls
    (piIdx n (pis.length / 2)) ∧ v = (prods (piPairs ls pis)).sum

/-- an unreduced sum: the limbs stand for `V` minus a multiple of `Q`, in the native field -/
def Loose (I : Info p) (Q k : ℕ) (w : ℕ → ZMod p) (x : FpElemVar p) (v : ZMod Q) : Prop :=
  ∃ d < 2 ^ k, ∃ V < 2 ^ k * 2 ^ (2 * I.mod.m), ((x.num I.mod w + d * Q : ℕ) : ZMod p) = ((V : ℕ) : ZMod p) ∧
    ((V : ℕ) : ZMod Q) = v

theorem Loose.el (h : Par I Q k) {w : ℕ → ZMod p} {x : FpElemVar p} {v : ZMod Q} (hl : Loose I Q k w x v)
    (hs : x.Small I.mod w) : El Q I.mod w x = v := by
  obtain ⟨d, hd, V, hV, h1, h2⟩ := hl
  have h4 := two_pow_k h
  have := num_lt hs
  rw [← h2]
  refine sum_eq h (d := d) (e := 0) ?_ hV (by omega) (by omega) (by simpa using h1)
  calc x.num I.mod w < 1 * 2 ^ (2 * I.mod.m) := by omega
    _ ≤ _ := Nat.mul_le_mul_right _ (by omega)

theorem sum_num_lt {q : FpElem p} {w : ℕ → ZMod p} (xs : List (FpElemVar p)) (hs : ∀ x ∈ xs, x.Small q w) :
    (xs.map (fun x => x.num q w)).sum ≤ xs.length * (2 ^ (2 * q.m) - 1) := by
  induction xs with
  | nil => simp
  | cons x l ih =>
    have h1 := num_lt (hs x (by simp))
    have h2 := ih (fun y hy => hs y (by simp [hy]))
    simp only [List.map_cons, List.sum_cons, List.length_cons, Nat.add_mul, Nat.one_mul]
    omega

theorem sum_num_cast {q : FpElem p} {w : ℕ → ZMod p} (xs : List (FpElemVar p)) :
    (((xs.map (fun x => x.num q w)).sum : ℕ) : ZMod Q) = (xs.map (El Q q w)).sum := by
  induction xs with
  | nil => simp
  | cons x l ih =>
    simp only [List.map_cons, List.sum_cons, Nat.cast_add, ih]
    rfl

/-- what the relation of an addition says about small summands -/
theorem loose_sum (h : Par I Q k) {w : ℕ → ZMod p} {xs : List (FpElemVar p)} {v : FpElemVar p} (hl : xs.length ≤ 2 ^ k)
    (hs : ∀ x ∈ xs, x.Small I.mod w)
    (hr : ∃ d < 2 ^ k, ((v.num I.mod w + d * Q : ℕ) : ZMod p) =
        (((xs.map (fun x => x.num I.mod w)).sum : ℕ) : ZMod p)) :
    Loose I Q k w v (xs.map (El Q I.mod w)).sum := by
  obtain ⟨d, hd, hh⟩ := hr
  refine ⟨d, hd, _, ?_, hh, sum_num_cast xs⟩
  have h1 : 0 < 2 ^ (2 * I.mod.m) := by positivity
  refine (sum_num_lt xs hs).trans_lt ?_
  calc xs.length * (2 ^ (2 * I.mod.m) - 1) ≤ 2 ^ k * (2 ^ (2 * I.mod.m) - 1) := Nat.mul_le_mul_right _ hl
    _ < 2 ^ k * 2 ^ (2 * I.mod.m) := Nat.mul_lt_mul_of_pos_left (by omega) (by positivity)

/-- `evaluate_pi_poly_circuit` -/
theorem evalPi_spec (h : Par I Q k) {n : ℕ} (hn0 : (n : ZMod Q) ≠ 0) (g : ZMod Q) {pis : List (FpElemVar p)}
    {bs : List (ZMod Q)} (hl : pis.length ≤ 2 ^ k) (hln : pis.length / 2 ≤ n)
    {c : Circ p} (hc : Ctx H k c) {ζ van : FpElemVar p} {a b : ZMod Q}
    (hζ : Hol H I.mod a ζ c) (hv : Hol H I.mod b van c)
    (hpi : List.Forall₂ (fun v z => Hol H I.mod z v c) pis bs)
    (hg : H → ∀ i ∈ piIdx n (pis.length / 2), a ≠ g ^ i) :
    Spec (evalPi I n g pis ζ van) c H
      (fun v c' => Hol H I.mod (prods (piPairs ((piIdx n (pis.length / 2)).map (lagVal n g a b)) bs)).sum v c')
      (fun v w => ζ.Small I.mod w → van.Small I.mod w → (∀ x ∈ pis, x.Small I.mod w) →
        ∃ z, PiRel n g (El Q I.mod w ζ) (El Q I.mod w van) (pis.map (El Q I.mod w)) z ∧ Loose I Q k w v z) := by
  unfold evalPi
  refine read_bind h hζ ?_
  intro ζr hζr
  refine read_bind h hv ?_
  intro vanr hvr
  rw [if_neg (by rintro (g | g); exacts [hn0 g, by omega])]
  refine hbind hc.wf (piLoop_spec h n g hζr hvr _ hg hc hζ hv) ?_
  intro ls c1 e1 hls
  have hc1 := hc.ext e1
  have hpp := piPairs_hol hls (hpi.imp fun _ _ g => g.ext e1)
  refine hbind e1.wf (piTerms_spec h (piPairs ls pis) hc1 hpp) ?_
  intro ts c2 e2 hts
  have hc2 := hc1.ext e2
  have hlen : ts.length ≤ 2 ^ k := by
    have h1 := hts.length_eq
    rw [prods_length] at h1
    have h2 := piPairs_length ((piIdx n (pis.length / 2)).map (lagVal n g a b)) bs
    have h3 := hpi.length_eq
    have h4 : ts.length = 2 * (piPairs ((piIdx n (pis.length / 2)).map (lagVal n g a b)) bs).length := h1
    omega
  refine Spec.conseq e2.wf (addVec_spec h hc2 hts (by rw [← hts.length_eq]; exact hlen)) (fun hH _ _ => hH)
    (fun _ _ _ g => g) ?_
  intro v w _ _ hr q1 q2 sζ sv sp
  obtain ⟨s1, v1⟩ := q2 sζ sv
  obtain ⟨s2, v2⟩ := q1 (fun x hx => by
    obtain ⟨m1, m2, m3, m4⟩ := piPairs_mem hx
    exact ⟨s1 _ m1, sp _ m2, s1 _ m3, sp _ m4⟩)
  refine ⟨_, ⟨ls.map (El Q I.mod w), ?_, rfl⟩, ?_⟩
  · rw [List.length_map]; exact v1
  · have := loose_sum h hlen s2 hr
    rw [v2, piPairs_map] at this
    exact this

end Verif.Circuit.VerifierPoly
