import Verif.Plonk.ProverRun

/-!
# Instances that agree at some points

For two TurboPlonk instances with the same key and public inputs whose wires and products agree at a few points, the
constraints agree at one of the points, and so do the polynomials that the prover opens.
-/

set_option linter.unusedSectionVars false

namespace Verif.Plonk

open Verif.Pcs Polynomial Verif.Props.Verifier

variable {F G : Type} [Field F] [DecidableEq F] [AddCommGroup G] [Module F G]

/-- instances of the same circuit, without lookups, with the same public inputs -/
structure Same (I J : Inst F) : Prop where
  left : I.lookup = none
  right : J.lookup = none
  k : ∀ i < 5, I.k i = J.k i
  σ : ∀ i < 5, I.σ i = J.σ i
  q : ∀ i < 13, I.q i = J.q i
  pi : I.pi = J.pi
  inputs : I.inputs = J.inputs

/-- the wires agree at `x` -/
def WiresAt (x : F) (I J : Inst F) : Prop := ∀ i < 5, (I.w i).eval x = (J.w i).eval x

/-- the products agree at `x` -/
def ProdAt (x : F) (I J : Inst F) : Prop := I.z.eval x = J.z.eval x

theorem Inst.nw_turbo {I : Inst F} (h : I.lookup = none) : I.nw = 5 := by simp [Inst.nw, h]

theorem constraints_agree {I J : Inst F} (d : Domain F) {x : F} (h : Same I J) (hw : WiresAt x I J)
    (hz : ProdAt x I J) (hz' : ProdAt (d.gen * x) I J) (τ τ' α β γ : F) :
    (combine (C α) (I.constraints d τ β γ)).eval x = (combine (C α) (J.constraints d τ' β γ)).eval x := by
  unfold Inst.constraints
  rw [h.left, h.right]
  have e1 : I.gate.eval x = J.gate.eval x := by
    unfold Inst.gate
    simp only [Finset.sum_range_succ, Finset.sum_range_zero, eval_add, eval_sub, eval_mul, eval_pow, eval_zero]
    rw [h.pi, hw 0 (by norm_num), hw 1 (by norm_num), hw 2 (by norm_num), hw 3 (by norm_num), hw 4 (by norm_num)]
    simp (disch := norm_num) only [h.q]
  have e2 : (I.perm d β γ).eval x = (J.perm d β γ).eval x := by
    unfold Inst.perm shift
    rw [Inst.nw_turbo h.left, Inst.nw_turbo h.right]
    simp only [Finset.prod_range_succ, Finset.prod_range_zero, eval_add, eval_sub, eval_mul, eval_one, eval_C, eval_X,
      eval_comp]
    rw [show I.z.eval x = J.z.eval x from hz, show I.z.eval (d.gen * x) = J.z.eval (d.gen * x) from hz',
      hw 0 (by norm_num), hw 1 (by norm_num), hw 2 (by norm_num), hw 3 (by norm_num), hw 4 (by norm_num)]
    simp (disch := norm_num) only [h.k, h.σ]
  have e3 : (I.start d).eval x = (J.start d).eval x := by
    unfold Inst.start
    simp only [eval_mul, eval_sub, eval_one]
    rw [show I.z.eval x = J.z.eval x from hz]
  simp only [List.append_nil, combine_eval_C, List.map_cons, List.map_nil, e1, e2, e3]

theorem batch_agree {d : Domain F} {x : F} {Is Js : List (Inst F)} (h : List.Forall₂ (fun I J => Same I J ∧
    WiresAt x I J ∧ ProdAt x I J ∧ ProdAt (d.gen * x) I J) Is Js) (τ τ' α β γ : F) (bs : List F) :
    (batch d τ α β γ Is bs).eval x = (batch d τ' α β γ Js bs).eval x := by
  unfold batch
  induction h generalizing bs with
  | nil => simp
  | cons h1 _ ih =>
    cases bs with
    | nil => simp
    | cons b bs =>
      simp only [List.zipWith_cons_cons, List.sum_cons, eval_add, eval_mul, ih bs,
        constraints_agree d h1.1 h1.2.1 h1.2.2.1 h1.2.2.2 τ τ']

theorem firstLookup_agree {Is Js : List (Inst F)} (h : List.Forall₂ Same Is Js) : firstLookup Is = false ∧
    firstLookup Js = false := by
  cases h with
  | nil => exact ⟨rfl, rfl⟩
  | cons h1 _ => simp [firstLookup, h1.left, h1.right]

/-! ## The openings -/

/-- the two items are the same at `x` -/
def ItemsAt (x : F) (a b : Bool × F[X] × F) : Prop := a.1 = b.1 ∧ a.2.1.eval x = b.2.1.eval x ∧ a.2.2 = b.2.2

theorem parts_agree {x : F} {l l' : List (Bool × F[X] × F)} (h : List.Forall₂ (ItemsAt x) l l') (v a b : F) :
    (parts v l a b).1.eval x = (parts v l' a b).1.eval x ∧ (parts v l a b).2.eval x = (parts v l' a b).2.eval x := by
  induction h generalizing a b with
  | nil => exact ⟨rfl, rfl⟩
  | @cons i j l l' h1 _ ih =>
    obtain ⟨t, p, y⟩ := i
    obtain ⟨t', p', y'⟩ := j
    obtain ⟨e1, e2, e3⟩ := h1
    simp only at e1 e2 e3
    subst e1 e3
    cases t
    · simp [parts, e2, (ih (a * v) b).1, (ih (a * v) b).2]
    · simp [parts, e2, (ih a (b * v)).1, (ih a (b * v)).2]

theorem forall₂_map_range {A B : Type} {R : A → B → Prop} {f : ℕ → A} {f' : ℕ → B} {n : ℕ}
    (h : ∀ i < n, R (f i) (f' i)) : List.Forall₂ R ((List.range n).map f) ((List.range n).map f') := by
  rw [List.forall₂_map_left_iff, List.forall₂_map_right_iff, List.forall₂_same]
  intro i hi
  exact h i (List.mem_range.1 hi)

/-- the agreement that makes the openings equal -/
structure Agree (d : Domain F) (x ζ : F) (I J : Inst F) : Prop where
  same : Same I J
  wx : WiresAt x I J
  wζ : WiresAt ζ I J
  zx : ProdAt x I J
  zζ : ProdAt (ζ * d.gen) I J

variable {d : Domain F} {x : F}

theorem Agree.items {I J : Inst F} {ζ : F} (h : Agree d x ζ I J) :
    List.Forall₂ (ItemsAt x) (I.items (truth d ζ I)) (J.items (truth d ζ J)) := by
  unfold Inst.items
  rw [Inst.nw_turbo h.same.left, Inst.nw_turbo h.same.right, h.same.left, h.same.right]
  refine List.rel_append (List.rel_append (List.rel_append (forall₂_map_range fun i hi => ?_)
    (forall₂_map_range fun i hi => ?_)) ?_) List.Forall₂.nil
  · exact ⟨rfl, h.wx i hi, h.wζ i hi⟩
  · have := h.same.σ i (by omega)
    exact ⟨rfl, by simp only [this], by simp only [truth, this]⟩
  · exact List.Forall₂.cons ⟨rfl, h.zx, h.zζ⟩ List.Forall₂.nil

theorem allItems_agree {ζ : F} {Is Js : List (Inst F)} (h : List.Forall₂ (Agree d x ζ) Is Js) :
    List.Forall₂ (ItemsAt x) (allItems (Is.map (fun I => (I, truth d ζ I)))) (allItems (Js.map (fun I => (I, truth d ζ I))))
    := by
  unfold allItems
  induction h with
  | nil => exact List.Forall₂.nil
  | cons h1 _ ih =>
    simp only [List.map_cons, List.flatMap_cons]
    exact List.rel_append h1.items ih

theorem Agree.lin {I J : Inst F} {ch : Chal F} (h : Agree d x ch.ζ I J) (τ τ' l1 ln : F) :
    (I.lin (truth d ch.ζ I) d ch τ l1 ln).eval x = (J.lin (truth d ch.ζ J) d ch τ' l1 ln).eval x := by
  have hw : ∀ i < 5, (truth d ch.ζ I).w i = (truth d ch.ζ J).w i := fun i hi => h.wζ i hi
  have hσ : ∀ i < 5, (truth d ch.ζ I).σ i = (truth d ch.ζ J).σ i := fun i hi => by
    simp only [truth, h.same.σ i hi]
  have hz : (truth d ch.ζ I).zNext = (truth d ch.ζ J).zNext := h.zζ
  unfold Inst.lin Inst.coeffZ Inst.coeffσ Inst.linGate
  rw [h.same.left, h.same.right, Inst.nw_turbo h.same.left, Inst.nw_turbo h.same.right, hz]
  have e1 : ∏ i ∈ Finset.range 5, (ch.β * I.k i * ch.ζ + ch.γ + (truth d ch.ζ I).w i) =
      ∏ i ∈ Finset.range 5, (ch.β * J.k i * ch.ζ + ch.γ + (truth d ch.ζ J).w i) :=
    Finset.prod_congr rfl fun i hi => by
      rw [h.same.k i (Finset.mem_range.1 hi), hw i (Finset.mem_range.1 hi)]
  have e2 : ∏ i ∈ Finset.range (5 - 1), (ch.β * (truth d ch.ζ I).σ i + ch.γ + (truth d ch.ζ I).w i) =
      ∏ i ∈ Finset.range (5 - 1), (ch.β * (truth d ch.ζ J).σ i + ch.γ + (truth d ch.ζ J).w i) :=
    Finset.prod_congr rfl fun i hi => by
      have := Finset.mem_range.1 hi
      rw [hσ i (by omega), hw i (by omega)]
  rw [e1, e2, hw 0 (by norm_num), hw 1 (by norm_num), hw 2 (by norm_num), hw 3 (by norm_num), hw 4 (by norm_num)]
  simp (disch := norm_num) only [h.same.q, h.same.σ]
  simp only [eval_add, eval_mul]
  rw [show I.z.eval x = J.z.eval x from h.zx]

theorem Agree.const {I J : Inst F} {ch : Chal F} (h : Agree d x ch.ζ I J) (l1 ln : F) :
    I.const (truth d ch.ζ I) d ch l1 ln = J.const (truth d ch.ζ J) d ch l1 ln := by
  have hw : ∀ i < 5, (truth d ch.ζ I).w i = (truth d ch.ζ J).w i := fun i hi => h.wζ i hi
  have hσ : ∀ i < 5, (truth d ch.ζ I).σ i = (truth d ch.ζ J).σ i := fun i hi => by
    simp only [truth, h.same.σ i hi]
  have hz : (truth d ch.ζ I).zNext = (truth d ch.ζ J).zNext := h.zζ
  unfold Inst.const
  rw [h.same.left, h.same.right, Inst.nw_turbo h.same.left, Inst.nw_turbo h.same.right, hz, h.same.pi,
    hw _ (by norm_num : 5 - 1 < 5)]
  have e2 : ∏ i ∈ Finset.range (5 - 1), (ch.γ + (truth d ch.ζ I).w i + ch.β * (truth d ch.ζ I).σ i) =
      ∏ i ∈ Finset.range (5 - 1), (ch.γ + (truth d ch.ζ J).w i + ch.β * (truth d ch.ζ J).σ i) :=
    Finset.prod_congr rfl fun i hi => by
      have := Finset.mem_range.1 hi
      rw [hσ i (by omega), hw i (by omega)]
  rw [e2]

theorem combine_agree {p : F[X]} {ts ts' : List F[X]} (h : List.Forall₂ (fun t t' => t.eval x = t'.eval x) ts ts') :
    (combine p ts).eval x = (combine p ts').eval x := by
  induction h with
  | nil => rfl
  | cons h1 _ ih => simp [combine, h1, ih]

theorem residue_agree {ch : Chal F} (τ τ' : F) {Is Js : List (Inst F)} (h : List.Forall₂ (Agree d x ch.ζ) Is Js)
    {ts ts' : List F[X]} (ht : List.Forall₂ (fun t t' => t.eval x = t'.eval x) ts ts') :
    (residue d ch τ (Is.map (fun I => (I, truth d ch.ζ I))) ts).eval x =
      (residue d ch τ' (Js.map (fun I => (I, truth d ch.ζ I))) ts').eval x := by
  obtain ⟨f1, f2⟩ := firstLookup_agree (h.imp fun _ _ h => h.same)
  have em : ∀ l : List (Inst F), (l.map (fun I => (I, truth d ch.ζ I))).map (·.1) = l := fun l => by
    rw [List.map_map]
    exact List.map_id _
  unfold residue
  simp only [em, f1, f2, List.length_map, h.length_eq, eval_add, eval_mul, combine_agree ht]
  clear f1 f2
  generalize alphaBases ch.α false Js.length = bs
  generalize (lag d 0).eval ch.ζ = l1
  generalize (lag d (d.size - 1)).eval ch.ζ = ln
  refine congrArg₂ (· + ·) (congrArg₂ (· + ·) ?_ rfl) (congrArg (fun a => eval x (C a)) ?_)
  · induction h generalizing bs with
    | nil => simp
    | cons h1 _ ih =>
      cases bs with
      | nil => simp
      | cons b bs =>
        simp only [List.map_cons, List.zipWith_cons_cons, List.sum_cons, eval_add, eval_mul, ih, h1.lin τ τ']
  · induction h generalizing bs with
    | nil => simp
    | cons h1 _ ih =>
      cases bs with
      | nil => simp
      | cons b bs => simp only [List.map_cons, List.zipWith_cons_cons, List.sum_cons, ih, h1.const]

/-- the last of two lists of parts agrees if the others do and the quotients do -/
theorem parts_last {s : F} (hs : s ≠ 0) : ∀ {l l' : List F}, l.length = l'.length →
    (∀ i, i + 1 < l.length → l.getD i 0 = l'.getD i 0) → combine s l = combine s l' → l = l' := by
  intro l
  induction l with
  | nil =>
    intro l' h1 _ _
    exact (List.length_eq_zero_iff.1 h1.symm).symm
  | cons a l ih =>
    intro l' h1 h2 h3
    obtain _ | ⟨b, l'⟩ := l'
    · simp at h1
    rw [List.length_cons, List.length_cons, Nat.add_right_cancel_iff] at h1
    simp only [combine] at h3
    obtain _ | ⟨c, l⟩ := l
    · obtain rfl := List.length_eq_zero_iff.1 h1.symm
      simp only [combine, mul_zero, add_zero] at h3
      rw [h3]
    · have e : a = b := by simpa using h2 0 (by simp)
      subst e
      have h4 := mul_left_cancel₀ hs (add_left_cancel h3)
      rw [ih h1 (fun i hi => by simpa using h2 (i + 1) (by simpa using hi)) h4]

end Verif.Plonk
