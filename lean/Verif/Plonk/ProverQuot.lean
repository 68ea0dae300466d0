import Verif.Plonk.ProverPoly
import Verif.Plonk.Degrees

/-!
# The quotient polynomial of the prover
-/

set_option linter.unusedSectionVars false

namespace Verif.Plonk

open Verif.Circuit Verif.Pcs Polynomial
open Verif.Props.Lagrange (C57_first_and_last L)

theorem mapM_forall₂ {ε α β : Type} {g : α → Except ε β} : ∀ {l : List α} {l' : List β},
    l.mapM g = .ok l' → List.Forall₂ (fun a b => g a = .ok b) l l' := by
  intro l
  induction l with
  | nil =>
    intro l' h
    rw [List.mapM_nil] at h
    obtain rfl : [] = l' := Except.ok.inj h
    exact .nil
  | cons a l ih =>
    intro l' h
    rw [List.mapM_cons] at h
    cases h1 : g a with
    | error e => rw [h1] at h; cases h
    | ok b =>
      rw [h1] at h
      cases h2 : l.mapM g with
      | error e => rw [h2] at h; cases h
      | ok bs =>
        rw [h2] at h
        obtain rfl : b :: bs = l' := Except.ok.inj h
        exact .cons h1 (ih h2)

theorem mapM_range_ok {ε β : Type} {g : ℕ → Except ε β} {m : ℕ} {l : List β}
    (h : (List.range m).mapM g = .ok l) : l.length = m ∧ ∀ i < m, ∀ z, g i = .ok (l.getD i z) := by
  have h := mapM_forall₂ h
  have hl := h.length_eq
  rw [List.length_range] at hl
  refine ⟨hl.symm, fun i hi z => ?_⟩
  have := (List.forall₂_iff_get.1 h).2 i (by simpa using hi) (by omega)
  simp only [List.get_eq_getElem, List.getElem_range] at this
  rw [this, List.getD_eq_getElem?_getD, List.getElem?_eq_getElem (by omega)]
  rfl

variable {F G G2 : Type} [Field F] [DecidableEq F] [AddCommGroup G] [Module F G]

/-- the polynomials of the lookup argument in the key and in the run are those of the instance -/
def LkPolysAre (a : Option (LkPk F)) (o : Option (LkRun F G)) (L : Option (LkPolys F)) : Prop :=
  match a, o, L with
  | none, none, none => True
  | some a, some o, some L => (toPoly a.range = L.range ∧ toPoly a.key = L.key ∧
      toPoly a.tableDomSep = L.tableDomSep ∧ toPoly a.qDomSep = L.qDomSep) ∧
      toPoly o.h1 = L.h1 ∧ toPoly o.h2 = L.h2 ∧ toPoly o.prod = L.prod
  | _, _, _ => False

theorem LkPolysAre.cases {a : Option (LkPk F)} {o : Option (LkRun F G)} {L : Option (LkPolys F)}
    (h : LkPolysAre a o L) : (a = none ∧ o = none ∧ L = none) ∨
      ∃ a' o' L', a = some a' ∧ o = some o' ∧ L = some L' ∧ (toPoly a'.range = L'.range ∧ toPoly a'.key = L'.key ∧
      toPoly a'.tableDomSep = L'.tableDomSep ∧ toPoly a'.qDomSep = L'.qDomSep) ∧
      toPoly o'.h1 = L'.h1 ∧ toPoly o'.h2 = L'.h2 ∧ toPoly o'.prod = L'.prod := by
  rcases a with _ | a <;> rcases o with _ | o <;> rcases L with _ | L <;>
    first
    | exact Or.inl ⟨rfl, rfl, rfl⟩
    | exact Or.inr ⟨_, _, _, rfl, rfl, rfl, h⟩
    | exact h.elim

/-- the polynomials in the run and its key are those of the instance -/
structure PolysAre (d : Domain F) (r : Run F G G2) (I : Inst F) : Prop where
  wires : r.wires.map toPoly = (List.range I.nw).map I.w
  sigmas : r.pk.sigmas.map toPoly = (List.range I.nw).map I.σ
  selectors : r.pk.selectors.map toPoly = (List.range I.nq).map I.q
  k : r.pk.vk.k = (List.range I.nw).map I.k
  size : r.pk.vk.domSize = d.size
  z : toPoly r.z = I.z
  pi : toPoly r.pi = I.pi
  lookup : LkPolysAre r.pk.lookup r.lk I.lookup

theorem map_toPoly_length {l : List (List F)} {n : ℕ} {P : ℕ → F[X]}
    (h : l.map toPoly = (List.range n).map P) : l.length = n := by
  have := congrArg List.length h
  simpa using this

theorem map_toPoly_get {l : List (List F)} {n : ℕ} {P : ℕ → F[X]}
    (h : l.map toPoly = (List.range n).map P) {j : ℕ} (hj : j < n) : toPoly (l.getD j []) = P j := by
  have hl := map_toPoly_length h
  have h1 := congrArg (fun l => l[j]?) h
  simp only [List.getElem?_map, List.getElem?_range hj, Option.map_some] at h1
  rw [List.getElem?_eq_getElem (by omega)] at h1
  rw [List.getD_eq_getElem?_getD, List.getElem?_eq_getElem (by omega)]
  simpa using h1

theorem fft_at (c : Domain F) {l : List (List F)} {n : ℕ} {P : ℕ → F[X]}
    (h : l.map toPoly = (List.range n).map P) {i j : ℕ} (hj : j < n) (hi : i < c.size) :
    ((l.map c.fft).getD j []).getD i 0 = (P j).eval (c.offset * c.gen ^ i) := by
  rw [← map_toPoly_get h hj, ← fft_getD c _ hi]
  have hl := map_toPoly_length h
  rw [List.getD_eq_getElem?_getD (l := l.map _), List.getElem?_map, List.getD_eq_getElem?_getD (l := l),
    List.getElem?_eq_getElem (by omega)]
  rfl

theorem fft_lk (c : Domain F) {l : List (List F)} {i j : ℕ} (hj : j < l.length) (hi : i < c.size) :
    ((l.map c.fft).getD j []).getD i 0 = (toPoly (l.getD j [])).eval (c.offset * c.gen ^ i) := by
  rw [← fft_getD c _ hi]
  rw [List.getD_eq_getElem?_getD (l := l.map _), List.getElem?_map, List.getD_eq_getElem?_getD (l := l),
    List.getElem?_eq_getElem hj]
  rfl

theorem getLastD_of_getD {l : List (List F)} {n : ℕ} (h : l.length = n + 1) :
    l.getLastD [] = l.getD n [] := by
  rw [List.getLastD_eq_getLast?, List.getLast?_eq_getElem?, h, List.getD_eq_getElem?_getD]
  rfl

section point
variable {d : Domain F} (hd : Good d) (ho : d.offset = 1)
include hd ho

theorem lag_inv {i : ℕ} (hi : i < d.size) {x : F} (hx : x ^ d.size - 1 ≠ 0) :
    (lag d i).eval x * (x ^ d.size - 1)⁻¹ = ((d.size : F) * d.gen⁻¹ ^ i * (x - d.gen ^ i))⁻¹ := by
  have hv : vanishing d x = x ^ d.size - 1 := by rw [vanishing, ho, one_pow]
  have h : (lag d i).eval x = vanishing d x *
      ((d.size : F) * d.offset ^ (d.size - 1) * d.gen⁻¹ ^ i * (x - point d i))⁻¹ :=
    hd.basis_off hi (by rw [hv]; exact hx)
  have hp : point d i = d.gen ^ i := by unfold point; rw [ho, one_mul]
  rw [h, hv, ho, hp, one_pow, mul_one]
  field_simp

theorem gen_last : d.gen ^ (d.size - 1) = d.gen⁻¹ := by
  refine eq_inv_of_mul_eq_one_left ?_
  rw [← pow_succ, Nat.sub_add_cancel (size_pos d), hd.prim.pow_eq_one]

/-- the value of the quotient at a point outside the domain, without lookups -/
theorem quot_turbo {I : Inst F} (α β γ : F) {x : F} (hx : x ^ d.size - 1 ≠ 0)
    {w q k σ : ℕ → F} {z zw pi : F} (hw : ∀ j < I.nw, w j = (I.w j).eval x)
    (hq : ∀ j < I.nq, q j = (I.q j).eval x) (hσ : ∀ j < I.nw, σ j = (I.σ j).eval x)
    (hk : ∀ j < I.nw, k j = I.k j) (hz : z = I.z.eval x) (hz' : zw = I.z.eval (x * d.gen))
    (hpi : pi = I.pi.eval x) :
    (quotCircuit w q pi + (quotPerm d.size I.nw x k w σ z zw α β γ).1) * (x ^ d.size - 1)⁻¹ +
        (quotPerm d.size I.nw x k w σ z zw α β γ).2 =
      ((I.gate).eval x + α * (I.perm d β γ).eval x + α ^ 2 * (I.start d).eval x) * (x ^ d.size - 1)⁻¹ := by
  have h5 := I.nw_pos.1
  have h13 : 13 ≤ I.nq := by unfold Inst.nq; split <;> omega
  have hlag := lag_inv hd ho (size_pos d) hx
  rw [pow_zero, pow_zero, mul_one] at hlag
  have e1 : (List.range I.nw).foldl (fun acc j => acc * (w j + k j * x * β + γ)) z =
      z * ∏ i ∈ Finset.range I.nw, (eval x (I.w i) + β * I.k i * x + γ) := by
    rw [foldl_mul (fun j => w j + k j * x * β + γ), map_range_prod]
    congr 1
    refine Finset.prod_congr rfl fun j hj => ?_
    have hj := Finset.mem_range.1 hj
    rw [hw j hj, hk j hj]
    ring
  have e2 : (List.range I.nw).foldl (fun acc j => acc * (w j + σ j * β + γ)) zw =
      zw * ∏ i ∈ Finset.range I.nw, (eval x (I.w i) + β * eval x (I.σ i) + γ) := by
    rw [foldl_mul (fun j => w j + σ j * β + γ), map_range_prod]
    congr 1
    refine Finset.prod_congr rfl fun j hj => ?_
    have hj := Finset.mem_range.1 hj
    rw [hw j hj, hσ j hj]
    ring
  unfold quotPerm quotCircuit
  simp only [e1, e2]
  unfold Inst.gate Inst.perm Inst.start
  simp only [Finset.sum_range_succ, Finset.sum_range_zero, zero_add, eval_add, eval_sub, eval_mul, eval_pow,
    eval_prod, eval_C, eval_X, eval_one, eval_shift, add_zero, Nat.reduceAdd]
  rw [hw 0 (by omega), hw 1 (by omega), hw 2 (by omega), hw 3 (by omega), hw 4 (by omega),
    hq 0 (by omega), hq 1 (by omega), hq 2 (by omega), hq 3 (by omega), hq 4 (by omega), hq 5 (by omega),
    hq 6 (by omega), hq 7 (by omega), hq 8 (by omega), hq 9 (by omega), hq 10 (by omega), hq 11 (by omega),
    hq 12 (by omega), hz, hz', hpi, div_eq_mul_inv]
  linear_combination -(α ^ 2 * (eval x I.z - 1)) * hlag

/-- the value of the lookup part of the quotient at a point outside the domain -/
theorem quot_lookup (h1 : d.size ≠ 1) {I : Inst F} {l : LkPolys F} (hl : I.lookup = some l) (τ α β γ : F) {x : F}
    (hx : x ^ d.size - 1 ≠ 0)
    {w w' : ℕ → F} {a b : LkVals F} (hw : ∀ j < I.nw, w j = (I.w j).eval x)
    (hw' : ∀ j < I.nw, w' j = (I.w j).eval (x * d.gen))
    (ha : a = ⟨l.range.eval x, l.key.eval x, l.tableDomSep.eval x, l.qDomSep.eval x, (I.q 13).eval x,
      l.h1.eval x, l.h2.eval x, l.prod.eval x⟩)
    (hb : b = ⟨l.range.eval (x * d.gen), l.key.eval (x * d.gen), l.tableDomSep.eval (x * d.gen),
      l.qDomSep.eval (x * d.gen), (I.q 13).eval (x * d.gen),
      l.h1.eval (x * d.gen), l.h2.eval (x * d.gen), l.prod.eval (x * d.gen)⟩) :
    ∃ u v, quotLookup d x w w' a b τ α β γ = .ok (u, v) ∧
      u * (x ^ d.size - 1)⁻¹ + v =
        α ^ 3 * (combine (C α) (I.lookupConstraints d l τ β γ)).eval x * (x ^ d.size - 1)⁻¹ := by
  have hnw : I.nw = 6 := by simp [Inst.nw, hl]
  have ho' : d.offset ≠ 0 := by rw [ho]; exact one_ne_zero
  have hv : vanishing d x = x ^ d.size - 1 := by rw [vanishing, ho, one_pow]
  subst ha hb
  unfold quotLookup
  rw [C57_first_and_last hd.prim ho' h1, hv]
  refine ⟨_, _, rfl, ?_⟩
  have hlag : ∀ i, L d i = lag d i := fun _ => rfl
  rw [hlag, hlag]
  unfold Inst.lookupConstraints Inst.table Inst.looked
  simp only [combine, eval_add, eval_sub, eval_mul, eval_C, eval_X, eval_one, eval_shift, eval_zero,
    gen_last hd ho, evalMergedTable, evalMergedLookup]
  rw [hw 0 (by omega), hw 1 (by omega), hw 2 (by omega), hw 3 (by omega), hw 4 (by omega), hw 5 (by omega),
    hw' 3 (by omega), hw' 4 (by omega)]
  simp only [div_eq_mul_inv]
  ring

end point

theorem combine_constraints (I : Inst F) (d : Domain F) (τ α β γ x : F) :
    (combine (C α) (I.constraints d τ β γ)).eval x =
      (I.gate).eval x + α * (I.perm d β γ).eval x + α ^ 2 * (I.start d).eval x +
        match I.lookup with
        | none => 0
        | some l => α ^ 3 * (combine (C α) (I.lookupConstraints d l τ β γ)).eval x := by
  unfold Inst.constraints
  cases I.lookup with
  | none =>
    simp only [List.append_nil, combine, eval_add, eval_mul, eval_C, eval_zero]
    ring
  | some l =>
    simp only [List.cons_append, List.nil_append, combine, eval_add, eval_mul, eval_C]
    ring

/-- the two domains of the prover: the quotient domain is finer -/
structure Finer (d quot : Domain F) : Prop where
  good : Good d
  offset : d.offset = 1
  size : d.size ≠ 1
  prim : IsPrimitiveRoot quot.gen quot.size
  ratio : quot.size / d.size * d.size = quot.size
  gen : quot.gen ^ (quot.size / d.size) = d.gen

theorem lkVals_eq (c : Domain F) {pk : PKey F G G2} {a : LkPk F} {o : LkRun F G} {I : Inst F} {l : LkPolys F}
    (hsel : pk.selectors.map toPoly = (List.range I.nq).map I.q) (hl : I.lookup = some l)
    (h : (toPoly a.range = l.range ∧ toPoly a.key = l.key ∧
      toPoly a.tableDomSep = l.tableDomSep ∧ toPoly a.qDomSep = l.qDomSep) ∧
      toPoly o.h1 = l.h1 ∧ toPoly o.h2 = l.h2 ∧ toPoly o.prod = l.prod) {i : ℕ} (hi : i < c.size) {x : F}
    (hx : c.offset * c.gen ^ i = x) :
    lkVals ((lkPolys pk a o).map c.fft) i = ⟨l.range.eval x, l.key.eval x, l.tableDomSep.eval x,
      l.qDomSep.eval x, (I.q 13).eval x, l.h1.eval x, l.h2.eval x, l.prod.eval x⟩ := by
  obtain ⟨⟨e1, e2, e3, e4⟩, e5, e6, e7⟩ := h
  have hnq : I.nq = 14 := by simp [Inst.nq, hl]
  rw [hnq] at hsel
  have hq : toPoly (pk.selectors.getLastD []) = I.q 13 := by
    rw [getLastD_of_getD (n := 13) (map_toPoly_length hsel)]
    exact map_toPoly_get hsel (by omega)
  have hlen : (lkPolys pk a o).length = 8 := rfl
  unfold lkVals
  simp only
  rw [fft_lk c (by omega) hi, fft_lk c (by omega) hi, fft_lk c (by omega) hi, fft_lk c (by omega) hi,
    fft_lk c (by omega) hi, fft_lk c (by omega) hi, fft_lk c (by omega) hi, fft_lk c (by omega) hi, hx]
  simp only [lkPolys, List.getD_cons_zero, List.getD_cons_succ, e1, e2, e3, e4, e5, e6, e7, hq]

/-- the values of the quotient of an instance -/
theorem quotEvals_ok {d quot : Domain F} (hf : Finer d quot) {gen : F} (hgen : gen ≠ 0) {zhInv : List F}
    (hz : ∀ i < quot.size, (gen * quot.gen ^ i) ^ d.size - 1 ≠ 0 ∧
      zhInv.getD (i % (quot.size / d.size)) 0 = ((gen * quot.gen ^ i) ^ d.size - 1)⁻¹)
    {τ : Option F} {t : F} {α β γ : F} {r : Run F G G2} {I : Inst F} (hr : PolysAre d r I)
    (hτ : I.lookup.isSome → τ = some t) {l : List F}
    (h : quotEvals d quot { quot with offset := gen } zhInv I.nw τ α β γ r = .ok l) :
    l.length = quot.size ∧ ∀ i < quot.size, l.getD i 0 =
      (combine (C α) (I.constraints d t β γ)).eval (gen * quot.gen ^ i) *
        ((gen * quot.gen ^ i) ^ d.size - 1)⁻¹ := by
  unfold quotEvals at h
  split at h
  · cases h
  simp only at h
  obtain ⟨h1, h2⟩ := mapM_range_ok h
  refine ⟨h1, fun i hi => ?_⟩
  have h := h2 i hi 0
  clear h2
  set coset : Domain F := { quot with offset := gen } with hc
  have hcs : coset.size = quot.size := rfl
  have hm : 0 < quot.size := size_pos quot
  set i' := (i + quot.size / d.size) % quot.size with hi'
  have hlt : i' < quot.size := Nat.mod_lt _ hm
  set x := gen * quot.gen ^ i with hxd
  have hx : coset.offset * coset.gen ^ i = x := rfl
  have hx' : coset.offset * coset.gen ^ i' = x * d.gen := by
    show gen * quot.gen ^ i' = _
    have : quot.gen ^ i' = quot.gen ^ (i + quot.size / d.size) := by
      rw [hi', ← pow_mod_orderOf, ← hf.prim.eq_orderOf, Nat.mod_mod, hf.prim.eq_orderOf, pow_mod_orderOf]
    rw [this, pow_add, hf.gen]
    ring
  have hw : ∀ j < I.nw, ((r.wires.map coset.fft).getD j []).getD i 0 = (I.w j).eval x :=
    fun j hj => (fft_at coset hr.wires hj hi).trans (by rw [hx])
  have hw' : ∀ j < I.nw, ((r.wires.map coset.fft).getD j []).getD i' 0 = (I.w j).eval (x * d.gen) :=
    fun j hj => (fft_at coset hr.wires hj hlt).trans (by rw [hx'])
  have hq : ∀ j < I.nq, ((r.pk.selectors.map coset.fft).getD j []).getD i 0 = (I.q j).eval x :=
    fun j hj => (fft_at coset hr.selectors hj hi).trans (by rw [hx])
  have hσ : ∀ j < I.nw, ((r.pk.sigmas.map coset.fft).getD j []).getD i 0 = (I.σ j).eval x :=
    fun j hj => (fft_at coset hr.sigmas hj hi).trans (by rw [hx])
  have hk : ∀ j < I.nw, r.pk.vk.k.getD j 0 = I.k j := by
    intro j hj
    rw [hr.k, List.getD_eq_getElem?_getD, getElem?_map_range _ _ _ hj]
    rfl
  have hzz : (coset.fft r.z).getD i 0 = I.z.eval x := by rw [fft_getD coset _ hi, hx, hr.z]
  have hzz' : (coset.fft r.z).getD i' 0 = I.z.eval (x * d.gen) := by
    rw [fft_getD coset _ (hlt : i' < coset.size), hx', hr.z]
  have hpi : (coset.fft r.pi).getD i 0 = I.pi.eval x := by rw [fft_getD coset _ hi, hx, hr.pi]
  have hxv : quot.gen ^ i * coset.offset = x := mul_comm _ _
  obtain ⟨hne, hinv⟩ := hz i hi
  have hmain := quot_turbo hf.good hf.offset (I := I) α β γ hne hw hq hσ hk hzz hzz' hpi
  rw [hinv, hxv, hr.size] at h
  rw [combine_constraints]
  rcases hr.lookup.cases with ⟨ha, hb, hl⟩ | ⟨a, o, L, ha, hb, hl, hlk⟩
  · rw [ha, hb] at h
    simp only [quotLookupAt] at h
    rw [← Except.ok.inj h, hl, add_zero]
    simp only [add_zero]
    exact hmain
  · rw [ha, hb] at h
    obtain rfl := hτ (by rw [hl]; rfl)
    obtain ⟨u, v, e1, e2⟩ := quot_lookup hf.good hf.offset hf.size hl t α β γ hne hw hw'
      (lkVals_eq coset hr.selectors hl hlk hi hx) (lkVals_eq coset hr.selectors hl hlk hlt hx')
    simp only [quotLookupAt] at h
    rw [e1] at h
    simp only at h
    rw [← Except.ok.inj h, hl]
    simp only
    linear_combination hmain + e2

end Verif.Plonk
