import Verif.Plonk.ProverRun
import Verif.Props.EndToEnd

/-!
# The prover on a circuit

The polynomials made from a satisfied circuit make all constraints vanish on the domain.
-/

set_option linter.unusedSectionVars false

namespace Verif.Plonk

open Verif.Circuit Verif.Pcs Polynomial
open Verif.Props.Finalize Verif.Props.Verifier Verif.Props.EndToEnd
open Verif.Props.CopyConstraints (SlotVar width slots next label rowNum rowDen Linked linked_of final_val)
open Verif.Props.LookupArgument (LookupsHold looked lookups table num den)

variable {p : ℕ} [Fact p.Prime]
variable {S : ℕ} {root : ZMod p} {rnd : List (ZMod p)} {c : Circ p} {f : FCirc p}

/-! ## The constraints -/

theorem lag_other {d : Domain (ZMod p)} (hd : Good d) (ho : d.offset = 1) {i j : ℕ} (hi : i < d.size)
    (hj : j < d.size) (hij : i ≠ j) : (lag d i).eval (d.gen ^ j) = 0 := by
  have := hd.basis_on hi hj
  rw [if_neg hij] at this
  unfold point at this
  rw [ho, one_mul] at this
  exact this

/-- a constraint at one point -/
theorem lag_mul {d : Domain (ZMod p)} (hd : Good d) (ho : d.offset = 1) {i j : ℕ} (hi : i < d.size)
    (hj : j < d.size) (P : (ZMod p)[X]) (h : i = j → P.eval (d.gen ^ i) = 0) :
    (lag d i * P).eval (d.gen ^ j) = 0 := by
  rw [eval_mul]
  by_cases hij : i = j
  · rw [← hij, h hij, mul_zero]
  · rw [lag_other hd ho hi hj hij, zero_mul]

theorem gate_vanishes {I : Inst (ZMod p)} {mg : Bool} (hI : KeyOf f I mg) {w : ℕ → (ZMod p)[X]}
    (h1 h2 z prod : (ZMod p)[X])
    {a : ℕ → ZMod p} (ha : Carries f w a) {j : ℕ} {x : ZMod p} (hpi : I.pi.eval (f.dom.gen ^ j) = x) {r : Row p}
    (hr : f.circ.rows[j]? = some r) (h : r.Holds x a) :
    (play I w h1 h2 z prod).gate.eval (f.dom.gen ^ j) = 0 := by
  have hq : ∀ i < 13, (I.q i).eval (f.dom.gen ^ j) = (rowSel r).getD i 0 := fun i hi =>
    hI.q i (by unfold Inst.nq; split <;> omega) j r hr
  have hw0 : (w 0).eval (f.dom.gen ^ j) = a r.w0 := ha (0, j) r.w0 (Or.inl ⟨r, hr, by simp⟩)
  have hw1 : (w 1).eval (f.dom.gen ^ j) = a r.w1 := ha (1, j) r.w1 (Or.inl ⟨r, hr, by simp⟩)
  have hw2 : (w 2).eval (f.dom.gen ^ j) = a r.w2 := ha (2, j) r.w2 (Or.inl ⟨r, hr, by simp⟩)
  have hw3 : (w 3).eval (f.dom.gen ^ j) = a r.w3 := ha (3, j) r.w3 (Or.inl ⟨r, hr, by simp⟩)
  have hw4 : (w 4).eval (f.dom.gen ^ j) = a r.w4 := ha (4, j) r.w4 (Or.inl ⟨r, hr, by simp⟩)
  unfold Inst.gate play
  simp only [Finset.sum_range_succ, Finset.sum_range_zero, zero_add, eval_add, eval_sub, eval_mul,
    eval_pow, hw0, hw1, hw2, hw3, hw4, hpi, hq 0 (by omega), hq 1 (by omega), hq 2 (by omega),
    hq 3 (by omega), hq 4 (by omega), hq 5 (by omega), hq 6 (by omega), hq 10 (by omega), hq 11 (by omega),
    hq 12 (by omega), add_zero, show 6 + 1 = 7 from rfl, show 6 + 2 = 8 from rfl, show 6 + 3 = 9 from rfl,
    hq 7 (by omega), hq 8 (by omega), hq 9 (by omega)]
  unfold Row.Holds Sel.output at h
  simp only [rowSel, List.getD_cons_zero, List.getD_cons_succ]
  linear_combination h

theorem perm_vanishes {I : Inst (ZMod p)} {mg : Bool} (hI : KeyOf f I mg) (w : ℕ → (ZMod p)[X]) (h1 h2 z prod : (ZMod p)[X])
    (β γ : ZMod p) {j : ℕ} (hj : j < f.dom.size)
    (h : z.eval (f.dom.gen ^ (j + 1)) * rowDen f (wireValue f w) β γ j =
      z.eval (f.dom.gen ^ j) * rowNum f (wireValue f w) β γ j) :
    ((play I w h1 h2 z prod).perm f.dom β γ).eval (f.dom.gen ^ j) = 0 := by
  unfold Inst.perm
  rw [(play_nw I w h1 h2 z prod).1, hI.nw]
  simp only [play, eval_sub, eval_mul, eval_prod, eval_add, eval_C, eval_X, eval_shift, ← pow_succ]
  have e1 : rowNum f (wireValue f w) β γ j = ∏ i ∈ Finset.range (width f.circ),
      (eval (f.dom.gen ^ j) (w i) + β * I.k i * f.dom.gen ^ j + γ) := by
    unfold rowNum
    refine Finset.prod_congr rfl fun i hi => ?_
    rw [hI.k i (by rw [hI.nw]; exact Finset.mem_range.1 hi) j hj]
    unfold wireValue
    ring
  have e2 : rowDen f (wireValue f w) β γ j = ∏ i ∈ Finset.range (width f.circ),
      (eval (f.dom.gen ^ j) (w i) + β * eval (f.dom.gen ^ j) (I.σ i) + γ) := by
    unfold rowDen
    refine Finset.prod_congr rfl fun i hi => ?_
    rw [← hI.σ i (by rw [hI.nw]; exact Finset.mem_range.1 hi) j hj]
    unfold wireValue
    ring
  rw [e1, e2] at h
  linear_combination -h

theorem lookup_vanishes {I : Inst (ZMod p)} {k : ℕ} (hI : KeyOf f I) (hd : Good f.dom) (ho : f.dom.offset = 1)
    (hn : 1 < f.dom.size) (hu : f.circ.ultra = some k) (hrows : f.circ.rows.length = f.dom.size)
    (hrange : f.circ.rangeVars.length = f.dom.size)
    {w : ℕ → (ZMod p)[X]} {a : ℕ → ZMod p} (ha : Carries f w a) {l : LkPolys (ZMod p)} (hl : I.lookup = some l)
    (h1 h2 z prod : (ZMod p)[X]) (τ β γ : ZMod p) {s : List (ZMod p)}
    (hs1 : ∀ j < f.dom.size, h1.eval (f.dom.gen ^ j) = s.getD j 0)
    (hs2 : ∀ j < f.dom.size, h2.eval (f.dom.gen ^ j) = s.getD (f.dom.size - 1 + j) 0)
    (hp1 : prod.eval 1 = 1) (hp2 : prod.eval (f.dom.gen ^ (f.dom.size - 1)) = 1)
    (hp : ∀ j < f.dom.size - 1, prod.eval (f.dom.gen ^ (j + 1)) * den f.dom.size s β γ j =
      prod.eval (f.dom.gen ^ j) * num f k a τ β γ j) :
    ∀ e ∈ (play I w h1 h2 z prod).lookupConstraints f.dom { l with h1 := h1, h2 := h2, prod := prod } τ β γ,
      ∀ j < f.dom.size, e.eval (f.dom.gen ^ j) = 0 := by
  set n := f.dom.size with hn'
  have hT := hI.tables l k hl hu
  unfold Inst.lookupConstraints
  simp only [List.mem_cons, List.not_mem_nil, or_false, forall_eq_or_imp, forall_eq]
  have hrow : ∀ j < n, ∃ r, f.circ.rows[j]? = some r := fun j hj =>
    ⟨_, List.getElem?_eq_getElem (by omega)⟩
  have hlooked : ∀ j < n, ((play I w h1 h2 z prod).looked { l with h1 := h1, h2 := h2, prod := prod } τ).eval
      (f.dom.gen ^ j) = looked f a τ j := by
    intro j hj
    obtain ⟨r, hr⟩ := hrow j hj
    rw [Props.LookupArgument.looked_some hr]
    have hq := hI.q 13 (by unfold Inst.nq; simp [hl]) j r hr
    have hw0 : (w 0).eval (f.dom.gen ^ j) = a r.w0 := ha (0, j) r.w0 (Or.inl ⟨r, hr, by simp⟩)
    have hw1 : (w 1).eval (f.dom.gen ^ j) = a r.w1 := ha (1, j) r.w1 (Or.inl ⟨r, hr, by simp⟩)
    have hw2 : (w 2).eval (f.dom.gen ^ j) = a r.w2 := ha (2, j) r.w2 (Or.inl ⟨r, hr, by simp⟩)
    have hw5 : (w 5).eval (f.dom.gen ^ j) = a (f.circ.rangeVars.getD j 0) := by
      refine ha (5, j) _ (Or.inr ⟨rfl, by simp [hu], ?_⟩)
      rw [List.getD_eq_getElem?_getD, List.getElem?_eq_getElem (by show j < _; omega)]
      rfl
    obtain ⟨-, -, hqd⟩ := hT.rows j r hr
    simp only [Inst.looked, play, eval_add, eval_mul, eval_C, hq, hw0, hw1, hw2, hw5, hqd]
    simp only [rowSel, List.getD_cons_zero, List.getD_cons_succ, Props.LookupArgument.combine, Row.lookupTuple]
  have htable : ∀ j < n, ((play I w h1 h2 z prod).table { l with h1 := h1, h2 := h2, prod := prod } τ).eval
      (f.dom.gen ^ j) = Props.LookupArgument.entry f k a τ j := by
    intro j hj
    obtain ⟨r, hr⟩ := hrow j hj
    rw [Props.LookupArgument.entry_some hr]
    have hq := hI.q 13 (by unfold Inst.nq; simp [hl]) j r hr
    have hw3 : (w 3).eval (f.dom.gen ^ j) = a r.w3 := ha (3, j) r.w3 (Or.inl ⟨r, hr, by simp⟩)
    have hw4 : (w 4).eval (f.dom.gen ^ j) = a r.w4 := ha (4, j) r.w4 (Or.inl ⟨r, hr, by simp⟩)
    obtain ⟨hk, htd, -⟩ := hT.rows j r hr
    simp only [Inst.table, play, eval_add, eval_mul, eval_C, hq, hw3, hw4, hk, htd, hT.range j hj]
    simp only [rowSel, List.getD_cons_zero, List.getD_cons_succ, Props.LookupArgument.combine, Row.tableTuple]
  refine ⟨fun j hj => lag_mul hd ho (by omega) hj _ fun _ => ?_, fun j hj => lag_mul hd ho (by omega) hj _ fun _ => ?_,
    fun j hj => lag_mul hd ho (by omega) hj _ fun _ => ?_, fun j hj => ?_⟩
  · rw [eval_sub, eval_shift, ← pow_succ, show f.dom.size - 1 + 1 = f.dom.size by omega, hd.prim.pow_eq_one,
      hs1 _ (by omega)]
    have := hs2 0 (by omega)
    rw [pow_zero, add_zero] at this
    rw [this, sub_self]
  · rw [pow_zero, eval_sub, hp1, eval_one, sub_self]
  · rw [eval_sub, hp2, eval_one, sub_self]
  · rw [eval_mul]
    by_cases hj' : j = n - 1
    · rw [eval_sub, eval_X, eval_C, hj', sub_self, zero_mul]
    · have h := hp j (by omega)
      unfold den num at h
      have e : n + j = n - 1 + (j + 1) := by omega
      rw [e, ← hs1 j hj, ← hs1 (j + 1) (by omega), ← hs2 j hj, ← hs2 (j + 1) (by omega)] at h
      simp only [eval_sub, eval_mul, eval_add, eval_C, eval_shift, ← pow_succ,
        hlooked j hj, htable j hj, htable (j + 1) (by omega)]
      refine mul_eq_zero_of_right _ ?_
      linear_combination -h

/-! ## The polynomials of the circuit -/

theorem option_mapM_eq {α β : Type} {g : α → Option β} {h : α → β} (hg : ∀ a b, g a = some b → b = h a) :
    ∀ {l : List α} {l' : List β}, l.mapM g = some l' → l' = l.map h := by
  intro l
  induction l with
  | nil =>
    intro l' hl
    simp only [List.mapM_nil, Option.pure_def, Option.some.injEq] at hl
    rw [← hl]; rfl
  | cons a l ih =>
    intro l' hl
    rw [List.mapM_cons] at hl
    simp only [Option.bind_eq_bind, Option.bind_eq_some_iff, Option.pure_def, Option.some.injEq] at hl
    obtain ⟨b, hb, bs, hbs, rfl⟩ := hl
    rw [List.map_cons, hg _ _ hb, ih hbs]

theorem wirePolys_eq {ps : List (List (ZMod p))} (h : wirePolys f = .ok ps) :
    ps = (wireVecs f.circ).map (fun v => f.dom.ifft (v.map f.circ.val)) := by
  unfold wirePolys at h
  split at h
  · cases h
  · split at h
    · cases h
    · rename_i l hl
      rw [option_mapM_eq (h := fun v => v.map f.circ.val) (fun v b hv => option_mapM_eq (h := f.circ.val)
        (fun x y hxy => by unfold Circ.val; rw [List.getD_eq_getElem?_getD, hxy]; rfl) hv) hl] at h
      rw [← Except.ok.inj h, List.map_map]
      rfl

theorem wireVecs_slot {c : Circ p} {s : ℕ × ℕ} {x : ℕ} (h : SlotVar c s x) :
    ∃ v, (wireVecs c)[s.1]? = some v ∧ v[s.2]? = some x := by
  obtain ⟨i, j⟩ := s
  rcases h with ⟨r, hr, h⟩ | ⟨h5, hu, hx⟩
  · simp only at hr h
    have e : ∀ g : Row p → ℕ, (c.rows.map g)[j]? = some (g r) := fun g => by rw [List.getElem?_map, hr]; rfl
    unfold wireVecs
    rcases h with ⟨rfl, rfl⟩ | ⟨rfl, rfl⟩ | ⟨rfl, rfl⟩ | ⟨rfl, rfl⟩ | ⟨rfl, rfl⟩ <;> cases c.ultra <;>
      exact ⟨_, rfl, e _⟩
  · simp only at h5 hx
    subst h5
    unfold wireVecs
    cases hcu : c.ultra with
    | none => exact absurd hcu hu
    | some k => exact ⟨_, rfl, hx⟩

/-- what the rounds have left in the run -/
structure Left {F G G2 : Type} [Field F] [DecidableEq F] [AddCommGroup G] [Module F G] (d : Domain F) (τ : Option F)
    (β γ : F) (r₀ r : Run F G G2) : Prop where
  cs : r.cs = r₀.cs
  pk : r.pk = r₀.pk
  wires : ∃ ps, r₀.cs.wirePolys = .ok ps ∧
    r.wires = ps.mapIdx (fun i p => maskPoly d.size [(r₀.mask.wire i).1, (r₀.mask.wire i).2] p)
  wireComms : batchCommit r₀.pk.commitKey r.wires = .ok r.wireComms
  pi : ∃ q, r₀.cs.inputPoly = .ok q ∧ r.pi = norm q
  z : ∃ q, r₀.cs.prodPerm β γ = .ok q ∧
    r.z = maskPoly d.size [r₀.mask.z.1, r₀.mask.z.2.1, r₀.mask.z.2.2] q
  zComm : commit r₀.pk.commitKey r.z = .ok r.zComm
  lk : (r₀.cs.lookup = false ∧ r.lk = none) ∨ (r₀.cs.lookup = true ∧ ∃ t table s a b q o ma mb mq,
    τ = some t ∧ r₀.cs.table t = .ok table ∧ r₀.cs.sorted t table = .ok (s, a, b) ∧
    r₀.cs.lookupProd t β γ table s = .ok q ∧ r.lk = some o ∧ ma.length = 3 ∧ mb.length = 3 ∧ mq.length = 3 ∧
    o.h1 = maskPoly d.size ma a ∧ o.h2 = maskPoly d.size mb b ∧ o.prod = maskPoly d.size mq q ∧
    batchCommit r₀.pk.commitKey [o.h1, o.h2] = .ok o.hComms ∧ commit r₀.pk.commitKey o.prod = .ok o.prodComm)

theorem liftC_ok {α : Type} {x : Except CErr α} {a : α} (h : liftC x = .ok a) : x = .ok a := by
  cases x with
  | error e => cases h
  | ok b => rw [← Except.ok.inj h]

theorem liftP_ok {α : Type} {x : Except Pcs.Err α} {a : α} (h : liftP x = .ok a) : x = .ok a := by
  cases x with
  | error e => cases h
  | ok b => rw [← Except.ok.inj h]

theorem ran_left {F G G2 : Type} [Field F] [DecidableEq F] [AddCommGroup G] [Module F G] {d : Domain F}
    {τ : Option F} {β γ : F} {r₀ r : Run F G G2} (h : Ran d τ β γ r₀ r) (hlk : r₀.lk = none) :
    Left d τ β γ r₀ r := by
  obtain ⟨r1, r2, r3, h1, h2, h3, h4⟩ := h
  unfold round1 at h1
  obtain ⟨ps, e1, h1⟩ := except_bind_ok h1
  obtain ⟨cs, e2, h1⟩ := except_bind_ok h1
  obtain ⟨pi, e3, h1⟩ := except_bind_ok h1
  have h1 := Except.ok.inj h1
  have e1 := liftC_ok e1
  have e2 := liftP_ok e2
  have e3 := liftC_ok e3
  unfold round2 at h3
  obtain ⟨z, e4, h3⟩ := except_bind_ok h3
  obtain ⟨zc, e5, h3⟩ := except_bind_ok h3
  have h3 := Except.ok.inj h3
  have e4 := liftC_ok e4
  have e5 := liftP_ok e5
  unfold lkRound1 at h2
  unfold lkRound2 at h4
  subst h1
  subst h3
  simp only at h2 e4 e5 h4
  by_cases hl : r₀.cs.lookup = true
  · rw [if_pos hl] at h2
    cases τ with
    | none => cases h2
    | some t =>
      simp only at h2
      obtain ⟨tb, e6, h2⟩ := except_bind_ok h2
      obtain ⟨⟨s, a, b⟩, e7, h2⟩ := except_bind_ok h2
      obtain ⟨hc, e8, h2⟩ := except_bind_ok h2
      have h2 := Except.ok.inj h2
      have e6 := liftC_ok e6
      have e7 := liftC_ok e7
      have e8 := liftP_ok e8
      subst h2
      simp only at e4 e5 h4
      rw [if_pos hl] at h4
      obtain ⟨q, e9, h4⟩ := except_bind_ok h4
      obtain ⟨qc, e10, h4⟩ := except_bind_ok h4
      have h4 := Except.ok.inj h4
      have e9 := liftC_ok e9
      have e10 := liftP_ok e10
      subst h4
      exact ⟨rfl, rfl, ⟨ps, e1, rfl⟩, e2, ⟨pi, e3, rfl⟩, ⟨z, e4, rfl⟩, e5, Or.inr ⟨hl, t, tb, s, a, b, q, _,
        [_, _, _], [_, _, _], [_, _, _], rfl, e6, e7, e9, rfl, rfl, rfl, rfl, rfl, rfl, rfl, e8, e10⟩⟩
  · rw [if_neg hl] at h2
    have h2 := Except.ok.inj h2
    subst h2
    simp only at e4 e5 h4
    rw [if_neg hl] at h4
    have h4 := Except.ok.inj h4
    subst h4
    exact ⟨rfl, rfl, ⟨ps, e1, rfl⟩, e2, ⟨pi, e3, rfl⟩, ⟨z, e4, rfl⟩, e5, Or.inl ⟨by simpa using hl, hlk⟩⟩

section
variable {G G2 : Type} [AddCommGroup G] [Module (ZMod p) G] [DecidableEq G]
  [AddCommGroup G2] [Module (ZMod p) G2] [DecidableEq G2]

theorem preprocess_lengths {srs : Srs G G2} {pk : PKey (ZMod p) G G2} (h : preprocess rnd srs f = .ok pk) :
    (∀ q ∈ pk.selectors, q.length = f.dom.size) ∧ ∀ q ∈ pk.sigmas, q.length = f.dom.size := by
  unfold preprocess at h
  split at h
  · cases h
  · obtain ⟨sel, e1, h⟩ := except_bind_ok h
    obtain ⟨sig, e2, h⟩ := except_bind_ok h
    obtain ⟨lpk, -, h⟩ := except_bind_ok h
    obtain ⟨⟨ck, ok⟩, -, h⟩ := except_bind_ok h
    simp only at h
    obtain ⟨_, -, h⟩ := except_bind_ok h
    obtain ⟨_, -, h⟩ := except_bind_ok h
    obtain ⟨_, -, h⟩ := except_bind_ok h
    obtain ⟨_, -, h⟩ := except_bind_ok h
    rw [← Except.ok.inj h]
    have e1 := liftC_ok e1
    have e2 := liftC_ok e2
    unfold selectorPolys at e1
    unfold sigmaPolys at e2
    constructor
    · split at e1
      · cases e1
      · rw [← Except.ok.inj e1]
        intro q hq
        obtain ⟨v, -, rfl⟩ := List.mem_map.1 hq
        simp [Domain.ifft]
    · split at e2
      · cases e2
      · rw [← Except.ok.inj e2]
        intro q hq
        obtain ⟨v, -, rfl⟩ := List.mem_map.1 hq
        simp [Domain.ifft]

/-- a circuit that is built, finalized, supported, preprocessed with the secret `x`, and satisfied with its
public inputs -/
structure Honest (S : ℕ) (root : ZMod p) (rnd : List (ZMod p)) (x : ZMod p) (g : G) (h : G2) (m : ℕ) (c : Circ p)
    (f : FCirc p) (pk : PKey (ZMod p) G G2) (inputs : List (ZMod p)) : Prop where
  built : Built c
  final : finalize S root rnd c = .ok f
  supported : Supported c f
  size : f.dom.size + 2 ≤ m
  pre : preprocess rnd (genSrs x g h m 1) f = .ok pk
  pub : publicInput c = .ok inputs
  sat : checkSat c inputs = .ok ()

variable {x : ZMod p} {g : G} {h : G2} {m : ℕ} {pk : PKey (ZMod p) G G2} {inputs : List (ZMod p)}

theorem Honest.publicInput (H : Honest S root rnd x g h m c f pk inputs) : publicInput f.circ = .ok inputs := by
  rw [← H.pub]
  cases hu : c.ultra with
  | none => exact (C25_turbo H.built hu H.final).2.1
  | some k =>
    obtain ⟨hk, -, hp2, hT⟩ := H.supported k hu
    exact (C25_ultra H.built hu hk hp2 H.final hT).2.2.1

theorem Honest.gates (H : Honest S root rnd x g h m c f pk inputs) (hl : inputs.length = c.pubIds.length) :
    GatesHold f.circ.rows inputs c.val ∧
      ∀ k, c.ultra = some k → LookupsHold c k c.val := by
  have hs := (checkSat_ok H.built.ok.wf inputs).1 H.sat
  cases hu : c.ultra with
  | none => exact ⟨((C25_turbo H.built hu H.final).2.2.2.2 _ _ hl).2 hs, fun k hk => by cases hk⟩
  | some k =>
    obtain ⟨hk, hp, hp2, hT⟩ := H.supported k hu
    have := (Props.LookupArgument.C26_satisfied H.built hu hk hp hp2 H.final hT inputs hl c.val).1 hs
    exact ⟨this.1, fun k' hk' => by cases hk'; exact this.2⟩

theorem Honest.inputs_length (H : Honest S root rnd x g h m c f pk inputs) : inputs.length = c.pubIds.length :=
  ((checkSat_ok H.built.ok.wf inputs).1 H.sat).len

theorem Honest.keys (hroot : IsPrimitiveRoot root (2 ^ S)) (H : Honest S root rnd x g h m c f pk inputs) :
    Commits (kzg x g) (f.dom.size + 3) pk.commitKey := by
  obtain ⟨I0, hI0, rfl⟩ := C73_key H.built hroot H.final inputs H.inputs_length
  obtain ⟨pk', hpk, -, hck, -⟩ := C73_preprocess H.built hroot H.final (fun k hk => (H.supported k hk).1.le) hI0 x g h
    H.size
  obtain rfl : pk = pk' := by
    rw [H.pre] at hpk
    exact Except.ok.inj hpk
  intro l hl
  have : pk.commitKey = ⟨powers x g (f.dom.size + 3)⟩ := by
    cases hkk : pk.commitKey
    rw [hkk] at hck
    simp only at hck
    rw [hck]
    rfl
  rw [this]
  exact commit_toPoly x g _ l hl

/-- the run of a satisfied circuit is a run for polynomials that make its constraints vanish -/
theorem Honest.run (hroot : IsPrimitiveRoot root (2 ^ S)) (H : Honest S root rnd x g h m c f pk inputs)
    {mask : Masks (ZMod p)} {τ : Option (ZMod p)} {β γ : ZMod p} {r : Run (ZMod p) G G2}
    (hr : Ran f.dom τ β γ { cs := f.arith, pk := pk, mask := mask, zComm := 0 } r) :
    ∃ I, Tracks (kzg x g) f.dom (openKey x g h) r I ∧ I.nw = numWireTypes f.circ ∧
      Vanish f.dom I (τ.getD 0) β γ := by
  have hc := H.built
  have hf := H.final
  obtain ⟨hdom, -⟩ := finalize_ok hf
  obtain ⟨hd, ho⟩ := good_of_newDomain hroot hdom
  have hn := final_size hf
  have hL := linked_of hc hf
  have hrows : f.circ.rows.length = f.dom.size := (C25_rows hc hf).2.2.2.2
  have hu := final_ultra hc hf
  have hval := final_val hc hf
  have hpi := H.publicInput
  have hlen : inputs.length = c.pubIds.length := by
    have hs := (checkSat_ok hc.ok.wf inputs).1 H.sat
    exact hs.len
  obtain ⟨hgates, hlookups⟩ := H.gates hlen
  obtain ⟨I0, hI0, rfl⟩ := C73_key hc hroot hf inputs hlen
  have hk32 : ∀ k, c.ultra = some k → k ≤ 32 := fun k hk => (H.supported k hk).1.le
  obtain ⟨pk', hpk, hvk, hck, hsel, hsig, hlkpk⟩ := C73_preprocess hc hroot hf hk32 hI0 x g h H.size
  obtain rfl : pk = pk' := by
    rw [H.pre] at hpk
    exact Except.ok.inj hpk
  obtain ⟨lsel, lsig⟩ := preprocess_lengths H.pre
  have hcom : Commits (kzg x g) (f.dom.size + 3) pk.commitKey := by
    intro l hl
    have : pk.commitKey = ⟨powers x g (f.dom.size + 3)⟩ := by
      cases hkk : pk.commitKey
      rw [hkk] at hck
      simp only at hck
      rw [hck]
      rfl
    rw [this]
    exact commit_toPoly x g _ l hl
  have hleft := ran_left hr rfl
  obtain ⟨hcs, hpk', ⟨ps, hps, hws⟩, hwc, ⟨pip, hpip, hrpi⟩, ⟨zz, hzz, hrz⟩, hzc, hlk⟩ := hleft
  simp only [FCirc.arith] at hps hpip hzz hwc hzc hpk'
  have hps := wirePolys_eq hps
  -- wires
  have hpslen : ps.length = I0.nw := by
    rw [hps, List.length_map, wireVecs_length, hI0.nw, Props.CopyConstraints.width_eq]
  have hwlen : r.wires.length = I0.nw := by rw [hws, List.length_mapIdx, hpslen]
  have hwires : ∀ (i : ℕ) (q : List (ZMod p)), r.wires[i]? = some q → ∃ (v : List ℕ) (a b : ZMod p), (wireVecs f.circ)[i]? = some v ∧
      q = maskPoly f.dom.size [a, b] (f.dom.ifft (v.map f.circ.val)) := by
    intro i q hq
    rw [hws, List.getElem?_mapIdx] at hq
    obtain ⟨q', hq', rfl⟩ := Option.map_eq_some_iff.1 hq
    rw [hps, List.getElem?_map] at hq'
    obtain ⟨v, hv, rfl⟩ := Option.map_eq_some_iff.1 hq'
    exact ⟨v, _, _, hv, rfl⟩
  have hwl : ∀ q ∈ r.wires, q.length ≤ f.dom.size + 2 := by
    intro q hq
    obtain ⟨i, hi, rfl⟩ := List.mem_iff_getElem.1 hq
    obtain ⟨v, a, b, -, e⟩ := hwires i _ (List.getElem?_eq_getElem hi)
    rw [e]
    refine (maskPoly_length _ _ _).trans ?_
    simp [Domain.ifft]
  set w : ℕ → (ZMod p)[X] := fun i => toPoly (r.wires.getD i []) with hw
  have hpow : ∀ j, (f.dom.gen ^ j) ^ f.dom.size = 1 := fun j => by
    rw [← pow_mul, mul_comm, pow_mul, hd.prim.pow_eq_one, one_pow]
  have hcarry : Carries f w c.val := by
    intro s y hs
    obtain ⟨v, hv, hy⟩ := wireVecs_slot hs
    have hi : s.1 < r.wires.length := by
      rw [hwlen, ← hpslen, hps, List.length_map]
      exact (List.getElem?_eq_some_iff.1 hv).1
    obtain ⟨v', a, b, hv', e⟩ := hwires s.1 _ (List.getElem?_eq_getElem hi)
    obtain rfl : v = v' := by
      rw [hv] at hv'
      exact Option.some.inj hv'
    have hvl := hL.full.len v (List.mem_of_getElem? hv)
    have hj : s.2 < f.dom.size := by
      rw [← hvl]
      exact (List.getElem?_eq_some_iff.1 hy).1
    show (toPoly (r.wires.getD s.1 [])).eval _ = _
    rw [List.getD_eq_getElem?_getD, List.getElem?_eq_getElem hi, Option.getD_some, e, maskPoly_eval _ _ _ (hpow _),
      ifft_eval f.dom hd.prim _ (by simp [hvl]) _ hj, List.getD_eq_getElem?_getD, List.getElem?_map, hy, ← hval]
    rfl
  -- permutation
  have hslot : ∀ s y, SlotVar f.circ s y → wireValue f w s = c.val y := hcarry
  have hden : ∀ j, j + 1 < f.dom.size → rowDen f (wireValue f w) β γ j ≠ 0 := by
    intro j hj h0
    rw [Props.CopyConstraints.C24_panic hc hf (wireValue f w) hslot β γ hj h0] at hzz
    cases hzz
  obtain ⟨Z, hZ, hZ1, hZ2⟩ := Props.CopyConstraints.C24_polynomial hc hroot hf (wireValue f w) hslot β γ hden
  obtain rfl : Z = zz := by
    rw [hZ] at hzz
    exact Except.ok.inj hzz
  have hZl : Z.length = f.dom.size := by
    unfold prodPermPoly at hZ
    split at hZ
    · cases hZ
    · rw [← Except.ok.inj hZ]
      simp [Domain.ifft]
  have hzl : r.z.length ≤ f.dom.size + 3 := by
    rw [hrz]
    refine (maskPoly_length _ _ _).trans ?_
    rw [hZl]
    simp
  have hz : ∀ j, (toPoly r.z).eval (f.dom.gen ^ j) = evalAt Z (f.dom.gen ^ j) := fun j => by
    rw [hrz, maskPoly_eval _ _ _ (hpow j)]
  -- public input
  obtain ⟨-, poly, hpoly, hpolyl, hpolyv, -⟩ := Props.Lagrange.C57_public_input hroot hc hf hpi
  obtain rfl : poly = pip := by
    rw [hpoly] at hpip
    exact Except.ok.inj hpip
  have hpiI : toPoly r.pi = I0.pi := by
    rw [hrpi, toPoly_norm]
    refine eq_of_degrees_lt_of_eval_index_eq (Finset.range f.dom.size) (v := point f.dom) hd.inj ?_ ?_ ?_
    · have := toPoly_degree_lt poly
      rw [hpolyl] at this
      simpa using this
    · simpa using hI0.pi.1
    · intro j hj
      have hj' := Finset.mem_range.1 hj
      have := hI0.pi.2.2 j hj'
      unfold point
      rw [this, ho, one_mul, toPoly_eval, hpolyv j hj']
  -- lookups
  obtain ⟨P1, P2, P3, hA, hB1, hB2, hC, hD1, hD2, hD3, hE⟩ : ∃ P1 P2 P3 : (ZMod p)[X],
      LkPolysAre pk.lookup r.lk (play I0 w P1 P2 (toPoly r.z) P3).lookup ∧
      r.lk.map (·.hComms) = (play I0 w P1 P2 (toPoly r.z) P3).lookup.map (fun l => [kzg x g l.h1, kzg x g l.h2]) ∧
      r.lk.map (·.prodComm) = (play I0 w P1 P2 (toPoly r.z) P3).lookup.map (fun l => kzg x g l.prod) ∧
      (∀ o, r.lk = some o → o.h1.length ≤ f.dom.size + 3 ∧ o.h2.length ≤ f.dom.size + 3 ∧
        o.prod.length ≤ f.dom.size + 3) ∧
      P1.natDegree ≤ f.dom.size + 2 ∧ P2.natDegree ≤ f.dom.size + 2 ∧ P3.natDegree ≤ f.dom.size + 2 ∧
      ∀ l, I0.lookup = some l → ∀ e ∈ (play I0 w P1 P2 (toPoly r.z) P3).lookupConstraints f.dom
        { l with h1 := P1, h2 := P2, prod := P3 } (τ.getD 0) β γ,
        ∀ j < f.dom.size, e.eval (f.dom.gen ^ j) = 0 := by
    have hlI := hI0.lookup
    rcases hlk with ⟨hl, hrl⟩ | ⟨hl, t, tb, s, a, b, q, o, ma, mb, mq, rfl, e1, e2, e3, hrl, l1, l2, l3, o1, o2, o3,
      c1, c2⟩
    · simp only [FCirc.arith] at hl
      rw [hl] at hlI
      have hnone : I0.lookup = none := by simpa using hlI
      refine ⟨0, 0, 0, ?_, ?_, ?_, ?_, by simp, by simp, by simp, ?_⟩
      · rw [hnone] at hlkpk
        rw [hrl]
        simp only [play, hnone, Option.map_none]
        cases hp : pk.lookup with
        | none => trivial
        | some a => rw [hp] at hlkpk; exact hlkpk.elim
      · rw [hrl]
        simp [play, hnone]
      · rw [hrl]
        simp [play, hnone]
      · intro o ho'
        rw [hrl] at ho'
        cases ho'
      · intro l hl'
        rw [hnone] at hl'
        cases hl'
    · simp only [FCirc.arith] at hl e1 e2 e3 c1 c2
      obtain ⟨k, hku⟩ := Option.isSome_iff_exists.1 hl
      have hcu : c.ultra = some k := by rw [← hu]; exact hku
      obtain ⟨hk, hp, hp2, hT⟩ := H.supported k hcu
      rw [hku] at hlI
      obtain ⟨l, hl0⟩ := Option.isSome_iff_exists.1 (hlI.trans rfl)
      have hrange := (C25_ultra hc hcu hk hp2 hf hT).2.1
      have h0 : c.val 0 = 0 := ((checkSat_ok hc.ok.wf _).1 H.sat).zero hc.ok.wf
      have htab := Props.LookupArgument.C26_table hc hcu hk.le hf t
      obtain rfl : table f k c.val t = tb := by
        rw [htab] at e1
        exact Except.ok.inj e1
      have hin := Props.LookupArgument.C26_complete hc hcu hf hT c.val h0 (hlookups k hcu) t
      obtain ⟨s', a', b', e4, hsl, -, -, hab⟩ := Props.LookupArgument.C26_sorted hc hcu hroot hf t hin
      obtain ⟨rfl, rfl, rfl⟩ : s' = s ∧ a' = a ∧ b' = b := by
        rw [e4] at e2
        have := Except.ok.inj e2
        simpa using this
      have hden' : ∀ j, j + 2 < f.dom.size → den f.dom.size s' β γ j ≠ 0 := by
        intro j hj hz0
        rw [Props.LookupArgument.C26_panic hc hcu hf t e4 β γ ⟨j, hj, hz0⟩] at e3
        cases e3
      obtain ⟨Q, hQ, q1, q2, q3⟩ := Props.LookupArgument.C26_polynomial hc hcu hroot hf t e4 β γ hden'
      obtain rfl : Q = q := by
        rw [hQ] at e3
        exact Except.ok.inj e3
      have hal : a'.length = f.dom.size ∧ b'.length = f.dom.size := by
        unfold sortedVecPolys at e4
        split at e4
        · cases e4
        split at e4
        · cases e4
        split at e4
        · cases e4
        split at e4
        · cases e4
        simp only at e4
        split at e4
        · cases e4
        have := Except.ok.inj e4
        simp only [Prod.mk.injEq] at this
        rw [← this.2.1, ← this.2.2]
        simp [Domain.ifft]
      have hQl : Q.length = f.dom.size := by
        unfold lookupProdPoly at hQ
        split at hQ
        · cases hQ
        split at hQ
        · cases hQ
        split at hQ
        · cases hQ
        split at hQ
        · cases hQ
        split at hQ
        · cases hQ
        rw [← Except.ok.inj hQ]
        simp [Domain.ifft]
      have n1 : o.h1.length ≤ f.dom.size + 3 := by
        rw [o1]
        refine (maskPoly_length _ _ _).trans ?_
        rw [l1, hal.1]
        omega
      have n2 : o.h2.length ≤ f.dom.size + 3 := by
        rw [o2]
        refine (maskPoly_length _ _ _).trans ?_
        rw [l2, hal.2]
        omega
      have n3 : o.prod.length ≤ f.dom.size + 3 := by
        rw [o3]
        refine (maskPoly_length _ _ _).trans ?_
        rw [l3, hQl]
        omega
      refine ⟨toPoly o.h1, toPoly o.h2, toPoly o.prod, ?_, ?_, ?_, ?_, natDegree_of_length n1,
        natDegree_of_length n2, natDegree_of_length n3, ?_⟩
      · rw [hl0] at hlkpk
        rw [hrl]
        simp only [play, hl0, Option.map_some]
        cases hp : pk.lookup with
        | none => rw [hp] at hlkpk; exact hlkpk.elim
        | some a =>
          rw [hp] at hlkpk
          exact ⟨hlkpk.1, rfl, rfl, rfl⟩
      · rw [hrl]
        simp only [play, hl0, Option.map_some, Option.some.injEq]
        have := hcom.batch (ls := [o.h1, o.h2]) (by simp [n1, n2])
        rw [this] at c1
        rw [← Except.ok.inj c1]
        rfl
      · rw [hrl]
        simp only [play, hl0, Option.map_some, Option.some.injEq]
        rw [hcom _ n3] at c2
        rw [← Except.ok.inj c2]
      · intro o' ho'
        rw [hrl] at ho'
        rw [← Option.some.inj ho']
        exact ⟨n1, n2, n3⟩
      · intro l' hl'
        refine lookup_vanishes hI0 hd ho hn hku hrows hrange hcarry hl' _ _ _ _ t β γ (s := s') ?_ ?_ ?_ ?_ ?_
        · intro j hj
          rw [o1, maskPoly_eval _ _ _ (hpow j)]
          exact (hab j hj).1
        · intro j hj
          rw [o2, maskPoly_eval _ _ _ (hpow j)]
          exact (hab j hj).2
        · rw [o3, maskPoly_eval _ _ _ (one_pow _)]
          exact q1
        · rw [o3, maskPoly_eval _ _ _ (hpow _)]
          exact q2
        · intro j hj
          rw [o3, maskPoly_eval _ _ _ (hpow _), maskPoly_eval _ _ _ (hpow _)]
          exact q3 j hj
  have hnw := (play_nw I0 w P1 P2 (toPoly r.z) P3).1
  have hnq := (play_nw I0 w P1 P2 (toPoly r.z) P3).2
  have hwp : r.wires.map toPoly = (List.range I0.nw).map w := by
    refine List.ext_getElem (by simp [hwlen]) fun i h1 h2 => ?_
    have hi : i < r.wires.length := by simpa using h1
    simp [hw, List.getD_eq_getElem?_getD, List.getElem?_eq_getElem hi]
  refine ⟨play I0 w P1 P2 (toPoly r.z) P3, ?_, ?_, ?_⟩
  · refine ⟨⟨?_, ?_, ?_, ?_, ?_, rfl, hpiI, ?_⟩, ?_, ?_, ?_, hB1, hB2, ?_, ?_, ?_, ?_, ?_⟩
    · rw [hnw]
      exact hwp
    · rw [hnw, hpk']
      exact hsig
    · rw [hnq, hpk']
      exact hsel
    · rw [hnw, hpk', hvk]
      rfl
    · rw [hpk', hvk]
      rfl
    · rw [hpk']
      exact hA
    · rw [hpk', hvk]
      unfold Inst.key
      rw [hnw, hnq]
      simp only [play, Option.map_map, Function.comp_def]
    · rw [hnw]
      rw [hcom.batch (fun l hl => (hwl l hl).trans (by omega)), hwp, List.map_map] at hwc
      exact (Except.ok.inj hwc).symm
    · rw [hcom _ hzl] at hzc
      exact (Except.ok.inj hzc).symm
    · rw [hcs]
      simp only [FCirc.arith, play, Option.isSome_map]
      exact hI0.lookup.symm
    · rw [hcs]
      exact hpi
    · show IsInputs f.dom I0.merged I0.inputs I0.pi
      rw [hI0.merged]
      exact hI0.pi
    · have nd : ∀ P : (ZMod p)[X], P.degree < f.dom.size → P.natDegree ≤ f.dom.size - 1 := fun P hP => by
        by_cases h0 : P = 0
        · rw [h0]; simp
        · rw [degree_eq_natDegree h0] at hP
          have : P.natDegree < f.dom.size := by exact_mod_cast hP
          omega
      refine ⟨?_, ?_, ?_, natDegree_of_length hzl, nd _ hI0.pi.1, ?_⟩
      · intro i hi
        rw [hnw, ← hwlen] at hi
        refine natDegree_of_length (D := f.dom.size + 1) ?_
        rw [List.getD_eq_getElem?_getD, List.getElem?_eq_getElem hi]
        exact hwl _ (List.getElem_mem hi)
      · intro i hi
        rw [hnw] at hi
        exact nd _ (hI0.σDegree i hi)
      · intro i hi
        rw [hnq] at hi
        exact nd _ (hI0.qDegree i hi)
      · intro l hl
        obtain ⟨l0, hl0, rfl⟩ := Option.map_eq_some_iff.1 hl
        obtain ⟨k, hku⟩ := Option.isSome_iff_exists.1 (hI0.lookup.symm.trans (by rw [hl0]; rfl))
        obtain ⟨d1, d2, d3, d4⟩ := (hI0.tables l0 k hl0 hku).degree
        exact ⟨nd _ d1, nd _ d2, nd _ d3, nd _ d4, hD1, hD2, hD3⟩
    · rw [RunLen, hpk']
      refine ⟨fun q hq => (hwl q hq).trans (by omega), fun q hq => by rw [lsig q hq]; omega,
        fun q hq => by rw [lsel q hq]; omega, hzl, hC, ?_⟩
      intro a ha
      rw [ha] at hlkpk
      cases hl0 : I0.lookup with
      | none => rw [hl0] at hlkpk; exact hlkpk.elim
      | some l =>
        rw [hl0] at hlkpk
        obtain ⟨-, x1, x2, x3, x4⟩ := hlkpk
        omega
  · rw [hnw, hI0.nw, Props.CopyConstraints.width_eq]
  · intro e he j hj
    unfold Inst.constraints at he
    rcases List.mem_append.1 he with he | he
    · simp only [List.mem_cons, List.not_mem_nil, or_false] at he
      rcases he with rfl | rfl | rfl
      · obtain ⟨row, hrow⟩ : ∃ row, f.circ.rows[j]? = some row := ⟨_, List.getElem?_eq_getElem (by omega)⟩
        exact gate_vanishes hI0 _ _ _ _ hcarry (hI0.pi_at ho hj) hrow (hgates j row hrow)
      · refine perm_vanishes hI0 _ _ _ _ _ β γ hj ?_
        rw [hz, hz]
        exact hZ2 j hj
      · refine lag_mul hd ho (by omega) hj _ fun _ => ?_
        have : (toPoly r.z).eval (f.dom.gen ^ 0) = 1 := by
          rw [hz, pow_zero]
          exact hZ1
        show (toPoly r.z - 1).eval _ = 0
        rw [eval_sub, this, eval_one, sub_self]
    · cases hl0 : I0.lookup with
      | none =>
        simp [play, hl0] at he
      | some l =>
        refine hE l hl0 e ?_ j hj
        simpa [play, hl0] using he

/-- what the prover needs of a circuit with its key: a run leads to polynomials that make the constraints vanish -/
structure Provable (S : ℕ) (root x : ZMod p) (g : G) (h : G2) (f : FCirc p) (pk : PKey (ZMod p) G G2)
    (inputs : List (ZMod p)) : Prop where
  dom : newDomain S root f.dom.size = some f.dom
  size : 1 < f.dom.size
  input : Circuit.publicInput f.circ = .ok inputs
  keys : Commits (kzg x g) (f.dom.size + 3) pk.commitKey
  run : ∀ {mask : Masks (ZMod p)} {τ : Option (ZMod p)} {β γ : ZMod p} {r : Run (ZMod p) G G2},
    Ran f.dom τ β γ { cs := f.arith, pk := pk, mask := mask, zComm := 0 } r →
    ∃ I, Tracks (kzg x g) f.dom (openKey x g h) r I ∧ I.nw = numWireTypes f.circ ∧ Vanish f.dom I (τ.getD 0) β γ

theorem Honest.provable (hroot : IsPrimitiveRoot root (2 ^ S)) (H : Honest S root rnd x g h m c f pk inputs) :
    Provable S root x g h f pk inputs :=
  ⟨newDomain_again (finalize_ok H.final).1, final_size H.final, H.publicInput, H.keys hroot, fun hr => H.run hroot hr⟩

/-- the quotient domain of the prover -/
theorem quotient_domain (hroot : IsPrimitiveRoot root (2 ^ S)) {m nw : ℕ} {d quot : Domain (ZMod p)}
    (hd : newDomain S root m = some d) (h1 : d.size ≠ 1) (hnw : 1 ≤ nw)
    (hq : newDomain S root (d.size * domainSizeRatio d.size nw) = some quot) :
    Finer d quot ∧ nw * (d.size + 1) + 2 < quot.size := by
  obtain ⟨hg, ho⟩ := good_of_newDomain hroot hd
  have hpos := size_pos' d
  have hlt : nw * (d.size + 1) + 2 < d.size * domainSizeRatio d.size nw := by
    unfold domainSizeRatio
    generalize nw * (d.size + 1) + 2 = a
    have := Nat.div_add_mod a d.size
    have hm := Nat.mod_lt a hpos
    rw [mul_add, mul_one]
    omega
  have hle := newDomain_size hq
  obtain ⟨a1, a2, -, -⟩ := newDomain_some hd
  obtain ⟨b1, b2, -, -⟩ := newDomain_some hq
  have hsz : d.size ≤ quot.size := by
    have : d.size * 1 ≤ nw * (d.size + 1) + 2 := by nlinarith
    omega
  have hlog : d.logSize ≤ quot.logSize := by
    by_contra hcon
    have : quot.size < d.size := Nat.pow_lt_pow_right (by norm_num) (by omega)
    omega
  have hdiv : quot.size / d.size = 2 ^ (quot.logSize - d.logSize) := by
    unfold Domain.size
    exact Nat.pow_div hlog (by norm_num)
  refine ⟨⟨hg, ho, h1, (gen_of_newDomain hroot hq).1, ?_, ?_⟩, by omega⟩
  · rw [hdiv]
    unfold Domain.size
    rw [← pow_add]
    congr 1
    omega
  · rw [hdiv, b2, a2, ← pow_mul, ← pow_add]
    congr 2
    omega

end

end Verif.Plonk
