import Verif.Plonk.Hiding

/-!
# C78: what a proof shows of the witness

The prover hides the polynomials of the wires with two random coefficients each.  With lookups the proof shows
three values of the wires 3 and 4: the commitment, and the values at two points.
-/

set_option linter.unusedSectionVars false

namespace Verif.Props.Hiding

open Verif.Circuit Verif.Pcs Verif.Plonk Polynomial
open Verif.Props.Finalize Verif.Props.Verifier Verif.Props.EndToEnd Verif.Props.Prover
open Verif.Props.CopyConstraints (SlotVar linked_of slots width)

variable {p : ℕ} [Fact p.Prime] {S : ℕ} {root : ZMod p} {rnd : List (ZMod p)}
variable {G G2 : Type} [AddCommGroup G] [Module (ZMod p) G] [DecidableEq G]
  [AddCommGroup G2] [Module (ZMod p) G2] [DecidableEq G2]

/-! ## Specification -/

/-- the polynomial has the values of the variables on a wire -/
def IsColumn (f : FCirc p) (i : ℕ) (P : (ZMod p)[X]) : Prop :=
  P.degree < f.dom.size ∧ ∀ j v, SlotVar f.circ (i, j) v → P.eval (f.dom.gen ^ j) = f.circ.val v

/-- what an observer computes from the powers `ck` in the structured reference string, the challenge `ζ`, and
from a proof: its commitment to wire `j` of instance `i` and the values of this wire at `ζ` and `ω ζ` -/
def trace (ck : List G) (n : ℕ) (ω ζ : ZMod p) (π : BProof (ZMod p) G) (i j : ℕ) : G :=
  let c := (π.wires.getD i []).getD j 0
  let e := match π.evals[i]? with
    | some e => e.wires.getD j 0
    | none => 0
  let e' := match π.lookups[i]? with
    | some (some l) => if j = 3 then l.evals.w3Next else l.evals.w4Next
    | _ => 0
  let s := fun k => ck.getD k 0
  ((ζ ^ n - 1) * (ζ - ζ * ω)) • c - e • (s (n + 1) - (ζ * ω) • s n - s 1 + (ζ * ω) • s 0) +
    e' • (s (n + 1) - ζ • s n - s 1 + ζ • s 0)

/-- the same for a polynomial -/
noncomputable def fingerprint (x : ZMod p) (n : ℕ) (ω ζ : ZMod p) (P : (ZMod p)[X]) : ZMod p :=
  (ζ ^ n - 1) * (ζ - ζ * ω) * P.eval x -
    (x ^ n - 1) * ((x - ζ * ω) * P.eval ζ - (x - ζ) * P.eval (ζ * ω))

/-! ## UltraPlonk -/

theorem isColumn_eq (hroot : IsPrimitiveRoot root (2 ^ S)) {c : Circ p} {f : FCirc p} (hc : Built c)
    (hf : finalize S root rnd c = .ok f) {i : ℕ} (hi : i < width f.circ) {P : (ZMod p)[X]} (h : IsColumn f i P) :
    P = column f i := by
  obtain ⟨h1, h2⟩ := h
  obtain ⟨h3, h4⟩ := column_spec hroot hc hf i
  obtain ⟨hdom, -⟩ := finalize_ok hf
  obtain ⟨hd, ho⟩ := good_of_newDomain hroot hdom
  have hL := linked_of hc hf
  refine eq_of_degrees_lt_of_eval_index_eq (Finset.range f.dom.size) (v := point f.dom) hd.inj
    (by simpa using h1) (by simpa using h3) fun j hj => ?_
  have hj := Finset.mem_range.1 hj
  obtain ⟨v, hv, -⟩ := (hL.links (i, j) (i, j) (by simp [slots, hi, hj])).1 ⟨0, rfl⟩
  unfold point
  rw [ho, one_mul, h2 j v hv, h4 j v hv]

theorem fingerprint_add_mask (x : ZMod p) {n : ℕ} {ω : ZMod p} (hω : ω ^ n = 1) (ζ : ZMod p) (P : (ZMod p)[X])
    (m : ZMod p × ZMod p) : fingerprint x n ω ζ (P + wireMask n m) = fingerprint x n ω ζ P := by
  unfold fingerprint
  simp only [eval_add, wireMask_eval, mul_pow, hω]
  ring

theorem trace_eq {x : ZMod p} {g : G} {n : ℕ} {ck : List G} (hck : ck = (List.range (n + 3)).map (fun i => x ^ i • g))
    {ω ζ : ZMod p} {π : BProof (ZMod p) G} {i j : ℕ} {ws : List G} {e : Evals (ZMod p)} {l : LkProof (ZMod p) G}
    {P : (ZMod p)[X]} (h1 : π.wires[i]? = some ws) (h2 : ws[j]? = some (P.eval x • g))
    (h3 : π.evals[i]? = some e) (h4 : e.wires[j]? = some (P.eval ζ)) (h5 : π.lookups[i]? = some (some l))
    (h6 : (if j = 3 then l.evals.w3Next else l.evals.w4Next) = P.eval (ζ * ω)) :
    trace ck n ω ζ π i j = fingerprint x n ω ζ P • g := by
  have hs : ∀ k < n + 3, ck.getD k 0 = x ^ k • g := by
    intro k hk
    rw [hck, List.getD_eq_getElem?_getD, getElem?_map_range _ _ _ hk]
    rfl
  unfold trace fingerprint
  simp only [h3, h5, h6]
  rw [List.getD_eq_getElem?_getD (l := π.wires), h1, Option.getD_some, List.getD_eq_getElem?_getD, h2,
    Option.getD_some, List.getD_eq_getElem?_getD, h4, Option.getD_some, hs _ (by omega), hs _ (by omega),
    hs _ (by omega), hs _ (by omega)]
  module

/-- C78: with lookups, a function of the proof and the structured reference string equals a function of the values
on the wires 3 and 4 that does not depend on the randomness of the prover. -/
theorem C78_ultra_trace (hroot : IsPrimitiveRoot root (2 ^ S)) {x : ZMod p} {g : G} {h : G2} {m : ℕ}
    {L : List (Case p G G2)}
    (H : ∀ y ∈ L, Honest S root rnd x g h m y.circ y.final y.key y.inputs)
    {gen : ZMod p} (hgen : gen ≠ 0) {oracle : List (Call (ZMod p) G G2) → ZMod p} {extra : Option (List ℕ)}
    {masks : ℕ → Masks (ZMod p)} {quotMask : ℕ → ZMod p} {π : BProof (ZMod p) G}
    (hπ : batchProve gen (newDomain S root) oracle extra masks quotMask (L.map (·.final.arith)) (L.map (·.key)) =
      .ok π) {i : ℕ} {y : Case p G G2} (hy : L[i]? = some y) (hu : y.circ.ultra.isSome) {j : ℕ} (hj : j = 3 ∨ j = 4)
    {P : (ZMod p)[X]} (hP : IsColumn y.final j P) :
    trace y.key.commitKey.powersOfG y.final.dom.size y.final.dom.gen
        (challenges oracle extra (L.map (·.key.vk)) (L.map (·.inputs)) π).ζ π i j =
      fingerprint x y.final.dom.size y.final.dom.gen
        (challenges oracle extra (L.map (·.key.vk)) (L.map (·.inputs)) π).ζ P • g := by
  obtain ⟨y0, hy0, Is, ch, τ, ts, W, W', hdom, hproof, hv, hin, hch, -, -, -, nw, -, -, ⟨hlen, hruns⟩, -⟩ :=
    proved hroot H hgen hπ
  rw [hv, hin, hch]
  obtain ⟨I, r, hI, hran, htr⟩ := hruns i y hy
  have hmem := List.mem_of_getElem? hy
  rw [← hdom y hmem] at hran htr hproof
  have Hy := H y hmem
  obtain ⟨hdomy, -⟩ := finalize_ok Hy.final
  obtain ⟨hd, ho⟩ := good_of_newDomain hroot hdomy
  obtain ⟨hw, -⟩ := ran_masked hran htr
  have hu' : y.final.circ.ultra.isSome := by rw [final_ultra Hy.built Hy.final]; exact hu
  have hwidth : j < width y.final.circ := by
    unfold width
    rw [if_neg (by intro h0; rw [h0] at hu'; simp at hu')]
    omega
  rw [isColumn_eq hroot Hy.built Hy.final hwidth hP]
  have hlk : I.lookup.isSome := by
    rw [← htr.lookup]
    have := (ran_left hran rfl).cs
    rw [this]
    exact hu'
  obtain ⟨l, hl⟩ := Option.isSome_iff_exists.1 hlk
  have hnw : I.nw = 6 := by simp [Inst.nw, hl]
  have hck : y.key.commitKey.powersOfG = (List.range (y.final.dom.size + 3)).map (fun i => x ^ i • g) := by
    obtain ⟨I0, hI0, hin0⟩ := C73_key Hy.built hroot Hy.final y.inputs Hy.inputs_length
    obtain ⟨pk', hpk, -, hck, -⟩ := C73_preprocess Hy.built hroot Hy.final (fun k hk => (Hy.supported k hk).1.le) hI0
      x g h Hy.size
    rw [Hy.pre] at hpk
    rw [Except.ok.inj hpk]
    exact hck
  rw [← fingerprint_add_mask x hd.prim.pow_eq_one ch.ζ _ ((masks i).wire j), ← hw j (by omega)]
  have hIs : (Is.map (fun I => (I, truth y.final.dom ch.ζ I)))[i]? = some (I, truth y.final.dom ch.ζ I) := by
    rw [List.getElem?_map, hI]
    rfl
  refine trace_eq hck (ws := (List.range I.nw).map (fun i => kzg x g (I.w i))) (e := I.evals (truth y.final.dom ch.ζ I))
    (l := Inst.lkProof (kzg x g) l (truth y.final.dom ch.ζ I)) ?_ ?_ ?_ ?_ ?_ ?_
  · rw [hproof]
    simp only [proof, List.getElem?_map, hIs, Option.map_some]
  · rw [getElem?_map_range _ _ _ (by omega)]
    rfl
  · rw [hproof]
    simp only [proof, List.getElem?_map, hIs, Option.map_some]
  · unfold Inst.evals
    simp only
    rw [getElem?_map_range _ _ _ (by omega)]
    rfl
  · rw [hproof]
    simp only [proof, List.getElem?_map, hIs, Option.map_some, hl]
  · rcases hj with rfl | rfl <;> rfl

/-- the difference of two fingerprints, as a polynomial in the challenge -/
noncomputable def gap (x : ZMod p) (n : ℕ) (ω : ZMod p) (D : (ZMod p)[X]) : (ZMod p)[X] :=
  C ((1 - ω) * D.eval x) * X ^ (n + 1) -
    (C ((1 - ω) * D.eval x) * X +
      C (x ^ n - 1) * ((C x - C ω * X) * D - (C x - X) * D.comp (C ω * X)))

theorem gap_eval (x : ZMod p) (n : ℕ) (ω ζ : ZMod p) (P P' : (ZMod p)[X]) :
    (gap x n ω (P - P')).eval ζ = fingerprint x n ω ζ P - fingerprint x n ω ζ P' := by
  unfold gap fingerprint
  simp only [eval_sub, eval_add, eval_mul, eval_C, eval_X, eval_pow, eval_comp]
  rw [mul_comm ω ζ]
  ring

theorem gap_ne_zero {x : ZMod p} {n : ℕ} (hn : 2 ≤ n) {ω : ZMod p} (hω : ω ≠ 1) {D : (ZMod p)[X]}
    (hD : D.degree < n) (hx : D.eval x ≠ 0) : gap x n ω D ≠ 0 ∧ (gap x n ω D).natDegree ≤ n + 1 := by
  have hnd : D.natDegree ≤ n - 1 := by
    have h0 : D ≠ 0 := by rintro rfl; simp at hx
    rw [degree_eq_natDegree h0] at hD
    have : D.natDegree < n := by exact_mod_cast hD
    omega
  have hlin : ∀ a b : ZMod p, (C a - C b * X : (ZMod p)[X]).natDegree ≤ 1 := fun a b =>
    nd_sub (nd_C _ _) (nd_Cmul _ natDegree_X_le)
  have h1 : (C ((1 - ω) * D.eval x) * X + C (x ^ n - 1) * ((C x - C ω * X) * D - (C x - X) * D.comp (C ω * X))).natDegree
      ≤ n := by
    refine nd_add (nd_Cmul _ (natDegree_X_le.trans (by omega))) (nd_Cmul _ (nd_sub ?_ ?_))
    · exact nd_mul (hlin _ _) hnd (by omega)
    · refine nd_mul (D := 1) (E := n - 1) ?_ ?_ (by omega)
      · have := hlin x 1
        rwa [C_1, one_mul] at this
      · refine natDegree_comp_le.trans ?_
        have : (C ω * X : (ZMod p)[X]).natDegree ≤ 1 := nd_Cmul _ natDegree_X_le
        calc D.natDegree * _ ≤ D.natDegree * 1 := Nat.mul_le_mul_left _ this
          _ ≤ n - 1 := by omega
  refine ⟨fun h0 => ?_, ?_⟩
  · have := congrArg (fun q => q.coeff (n + 1)) h0
    simp only [gap, coeff_sub, coeff_C_mul, coeff_X_pow_self, coeff_zero] at this
    rw [coeff_eq_zero_of_natDegree_lt (lt_of_le_of_lt h1 (Nat.lt_succ_self n)), mul_one, sub_zero] at this
    exact mul_ne_zero (sub_ne_zero.2 hω.symm) hx this
  · exact nd_sub (nd_Cmul _ (natDegree_X_pow_le _)) (h1.trans (by omega))

theorem key_size (hroot : IsPrimitiveRoot root (2 ^ S)) {x : ZMod p} {g : G} {h : G2} {m : ℕ} {y : Case p G G2}
    (H : Honest S root rnd x g h m y.circ y.final y.key y.inputs) : y.key.vk.domSize = y.final.dom.size := by
  obtain ⟨I0, hI0, -⟩ := C73_key H.built hroot H.final y.inputs H.inputs_length
  obtain ⟨pk', hpk, hvk, -⟩ := C73_preprocess H.built hroot H.final (fun k hk => (H.supported k hk).1.le) hI0
    x g h H.size
  rw [H.pre] at hpk
  rw [Except.ok.inj hpk, hvk]
  rfl

theorem key_dom (hroot : IsPrimitiveRoot root (2 ^ S)) {x : ZMod p} {g : G} {h : G2} {m : ℕ} {y y' : Case p G G2}
    (H : Honest S root rnd x g h m y.circ y.final y.key y.inputs)
    (H' : Honest S root rnd x g h m y'.circ y'.final y'.key y'.inputs) (hk : y.key = y'.key) :
    y.final.dom = y'.final.dom := by
  have e1 := newDomain_again (finalize_ok H.final).1
  have e2 := newDomain_again (finalize_ok H'.final).1
  rw [← key_size hroot H, hk, key_size hroot H', e2] at e1
  exact (Option.some.inj e1).symm

/-- C78: with lookups, a proof tells two witnesses apart: if the polynomials of the wire 3 (or 4) of an instance
have different values at the secret of the structured reference string, then no proof can come from both witnesses,
whatever the randomness, except for at most `n + 1` values of the challenge. -/
theorem C78_ultra_disjoint (hroot : IsPrimitiveRoot root (2 ^ S)) {x : ZMod p} {g : G} (hg : g ≠ 0) {h : G2} {m : ℕ}
    {L L' : List (Case p G G2)}
    (H : ∀ y ∈ L, Honest S root rnd x g h m y.circ y.final y.key y.inputs)
    (H' : ∀ y ∈ L', Honest S root rnd x g h m y.circ y.final y.key y.inputs)
    (hkeys : L.map (·.key) = L'.map (·.key)) (hins : L.map (·.inputs) = L'.map (·.inputs))
    {i : ℕ} {y y' : Case p G G2} (hy : L[i]? = some y) (hy' : L'[i]? = some y')
    (hu : y.circ.ultra.isSome) (hu' : y'.circ.ultra.isSome) {j : ℕ} (hj : j = 3 ∨ j = 4)
    {P P' : (ZMod p)[X]} (hP : IsColumn y.final j P) (hP' : IsColumn y'.final j P') (hx : P.eval x ≠ P'.eval x) :
    ∃ bad : Finset (ZMod p), bad.card ≤ y.final.dom.size + 1 ∧
      ∀ (gen : ZMod p) (oracle : List (Call (ZMod p) G G2) → ZMod p) (extra : Option (List ℕ))
        (masks masks' : ℕ → Masks (ZMod p)) (quotMask quotMask' : ℕ → ZMod p) (π : BProof (ZMod p) G), gen ≠ 0 →
        batchProve gen (newDomain S root) oracle extra masks quotMask (L.map (·.final.arith)) (L.map (·.key)) =
          .ok π →
        batchProve gen (newDomain S root) oracle extra masks' quotMask' (L'.map (·.final.arith)) (L'.map (·.key)) =
          .ok π →
        (challenges oracle extra (L.map (·.key.vk)) (L.map (·.inputs)) π).ζ ∈ bad := by
  have Hy := H y (List.mem_of_getElem? hy)
  have Hy' := H' y' (List.mem_of_getElem? hy')
  have hkey : y.key = y'.key := by
    have := congrArg (fun l => l[i]?) hkeys
    simpa [hy, hy'] using this
  have hdom := key_dom hroot Hy Hy' hkey
  have hvks : L.map (·.key.vk) = L'.map (·.key.vk) := by
    have := congrArg (fun l => l.map (·.vk)) hkeys
    simpa [List.map_map, Function.comp_def] using this
  obtain ⟨hd, -⟩ := good_of_newDomain hroot (finalize_ok Hy.final).1
  have hn := final_size Hy.final
  have hω : y.final.dom.gen ≠ 1 := by
    intro h1
    have := hd.prim.pow_ne_one_of_pos_of_lt (l := 1) (by omega) (by omega)
    rw [pow_one] at this
    exact this h1
  have hD : (P - P').degree < y.final.dom.size := by
    refine (degree_sub_le _ _).trans_lt (max_lt hP.1 ?_)
    rw [hdom]
    exact hP'.1
  obtain ⟨h0, hdeg⟩ := gap_ne_zero (by omega) hω hD (by rw [eval_sub]; exact sub_ne_zero.2 hx)
  refine ⟨(gap x y.final.dom.size y.final.dom.gen (P - P')).roots.toFinset,
    (Multiset.toFinset_card_le _).trans ((card_roots' _).trans hdeg), ?_⟩
  intro gen oracle extra masks masks' quotMask quotMask' π hgen h1 h2
  rw [Multiset.mem_toFinset, mem_roots h0, IsRoot, gap_eval, sub_eq_zero]
  have t1 := C78_ultra_trace hroot H hgen h1 hy hu hj hP
  have t2 := C78_ultra_trace hroot H' hgen h2 hy' hu' hj hP'
  rw [← hkey, ← hdom, ← hvks, ← hins, t1] at t2
  exact smul_left_injective (ZMod p) hg t2

/-! ### Two witnesses an observer tells apart -/

deriving instance DecidableEq for LkVk
deriving instance DecidableEq for LkPk
deriving instance DecidableEq for ProverParam
deriving instance DecidableEq for VerifierParam
deriving instance DecidableEq for VKey
deriving instance DecidableEq for PKey

/-- a circuit with a private variable of the given value added -/
def withVar (c : Circ 193) (x : ZMod 193) : Circ 193 :=
  match createVariable x c with
  | .ok (_, c) => c
  | .error _ => c

theorem built_var {c : Circ 193} (h : Built c) (x : ZMod 193) : Built (withVar c x) := by
  unfold withVar
  cases hc : createVariable x c with
  | ok r => exact Built.var c _ x _ h hc
  | error e => exact h

/-- an UltraPlonk circuit with a secret, which it looks up in a table that contains it -/
def exW (s : ZMod 193) : Circ 193 :=
  withTab (withVar (Circ.new 193 (some 1)) s) [(0, 2, 2)] [(2, 2), (1, 1)]

theorem built_exW (s : ZMod 193) : Built (exW s) :=
  built_tab (built_var (Built.new (some 1)) s) (by decide +revert +kernel) (by decide +revert +kernel)

theorem exW_ultra (s : ZMod 193) : (exW s).ultra.isSome := by
  decide +revert +kernel

/-- challenges: those asked for after a list of commitments (with the point of evaluation) are 7 -/
def zetaOracle (calls : List (Call (ZMod 193) (ZMod 193) (ZMod 193))) : ZMod 193 :=
  match calls.reverse with
  | .challenge _ :: .commitments _ _ :: _ => 7
  | _ => (calls.length : ℕ)

theorem zeta_seven (vks : List (VKey (ZMod 193) (ZMod 193) (ZMod 193))) (pis : List (List (ZMod 193)))
    (π : BProof (ZMod 193) (ZMod 193)) : (challenges zetaOracle none vks pis π).ζ = 7 := by
  simp only [challenges, ask, zetaOracle, List.reverse_append, List.reverse_cons, List.reverse_nil, List.nil_append,
    List.cons_append]

/-- the instance with the secret -/
def IsCase (s : ZMod 193) (y : Case 193 (ZMod 193) (ZMod 193)) : Prop :=
  y.circ = exW s ∧ Honest 6 125 rnd193 (5 : ZMod 193) (1 : ZMod 193) (1 : ZMod 193) 10 y.circ y.final y.key y.inputs

/-- what the prover returns for the case -/
def Proves (y : Case 193 (ZMod 193) (ZMod 193)) (π : BProof (ZMod 193) (ZMod 193)) : Prop :=
  ∃ masks quotMask, batchProve 5 (newDomain 6 125) zetaOracle none masks quotMask [y.final.arith] [y.key] = .ok π

theorem exW_case (s : ZMod 193) {f : FCirc 193} {pk : PKey (ZMod 193) (ZMod 193) (ZMod 193)}
    (hf : finalize' 6 125 rnd193 (exW s) = .ok f)
    (hpk : preprocess (p := 193) rnd193 (genSrs (5 : ZMod 193) (1 : ZMod 193) (1 : ZMod 193) 10 1) f = .ok pk)
    (h8 : f.dom.size = 8) (h1 : (exW s).tableGateIds = [(2, 2)]) (h2 : (exW s).pubIds.length = 0)
    (h3 : publicInput (exW s) = .ok []) (h4 : checkSat (exW s) [] = .ok ()) : IsCase s ⟨exW s, f, pk, []⟩ := by
  refine ⟨rfl, built_exW s, by rw [finalize_eq]; exact hf, ?_, by simp only [h8]; norm_num, hpk, h3, h4⟩
  intro k hk
  obtain rfl : 1 = k := Option.some.inj hk
  refine ⟨by norm_num, by norm_num, by norm_num, ?_⟩
  simp only [h8]
  intro t ht i hi1 hi2
  rw [h1, List.mem_singleton] at ht
  subst ht
  simp at hi1 hi2
  omega

/-- all proofs for an instance leave the same trace -/
theorem same_trace {s : ZMod 193} {y : Case 193 (ZMod 193) (ZMod 193)} (hy : IsCase s y)
    {π π' : BProof (ZMod 193) (ZMod 193)} (h1 : Proves y π) (h2 : Proves y π') :
    trace y.key.commitKey.powersOfG y.final.dom.size y.final.dom.gen 7 π 0 3 =
      trace y.key.commitKey.powersOfG y.final.dom.size y.final.dom.gen 7 π' 0 3 := by
  obtain ⟨masks, qm, h1⟩ := h1
  obtain ⟨masks', qm', h2⟩ := h2
  obtain ⟨hc, H⟩ := hy
  have hu : y.circ.ultra.isSome := by
    rw [hc]
    exact exW_ultra s
  have t1 := C78_ultra_trace (L := [y]) prim125 (by simpa using H) (gen := 5) (by decide +kernel) h1 (i := 0) rfl hu
    (Or.inl rfl) (column_spec prim125 H.built H.final 3)
  have t2 := C78_ultra_trace (L := [y]) prim125 (by simpa using H) (gen := 5) (by decide +kernel) h2 (i := 0) rfl hu
    (Or.inl rfl) (column_spec prim125 H.built H.final 3)
  rw [zeta_seven] at t1 t2
  rw [t1, t2]

/-- C78: zero knowledge fails with lookups: two satisfied instances with the same proving key and the same public
inputs, and a function of the proof that is true of every proof the prover can return for the one, and false of
every proof it can return for the other. -/
theorem C78_ultra_counterexample : ∃ y y' : Case 193 (ZMod 193) (ZMod 193), IsCase 3 y ∧ IsCase 4 y' ∧
    y.key = y'.key ∧ y.inputs = y'.inputs ∧ (∃ π, Proves y π) ∧ (∃ π, Proves y' π) ∧
    ∃ tell : BProof (ZMod 193) (ZMod 193) → Bool, (∀ π, Proves y π → tell π = true) ∧
      ∀ π, Proves y' π → tell π = false := by
  have h1 : okAnd (finalize' 6 125 rnd193 (exW 3)) (fun f =>
      okAnd (preprocess (p := 193) rnd193 (genSrs (5 : ZMod 193) (1 : ZMod 193) (1 : ZMod 193) 10 1) f) fun pk =>
      okAnd (batchProve 5 (newDomain 6 125) zetaOracle none exMasks (fun i => i + 1) [f.arith] [pk]) fun π =>
        decide (f.dom.size = 8 ∧ trace pk.commitKey.powersOfG f.dom.size f.dom.gen 7 π 0 3 = 28)) = true := by
    decide +kernel
  have h2 : okAnd (finalize' 6 125 rnd193 (exW 4)) (fun f =>
      okAnd (preprocess (p := 193) rnd193 (genSrs (5 : ZMod 193) (1 : ZMod 193) (1 : ZMod 193) 10 1) f) fun pk =>
      okAnd (batchProve 5 (newDomain 6 125) zetaOracle none exMasks (fun i => i + 1) [f.arith] [pk]) fun π =>
        decide (f.dom.size = 8 ∧ trace pk.commitKey.powersOfG f.dom.size f.dom.gen 7 π 0 3 = 147)) = true := by
    decide +kernel
  have h3 : okAnd (finalize' 6 125 rnd193 (exW 3)) (fun f =>
      okAnd (preprocess (p := 193) rnd193 (genSrs (5 : ZMod 193) (1 : ZMod 193) (1 : ZMod 193) 10 1) f) fun pk =>
      okAnd (finalize' 6 125 rnd193 (exW 4)) fun f' =>
      okAnd (preprocess (p := 193) rnd193 (genSrs (5 : ZMod 193) (1 : ZMod 193) (1 : ZMod 193) 10 1) f') fun pk' =>
        decide (pk = pk' ∧ f.dom.gen = f'.dom.gen)) = true := by
    decide +kernel
  obtain ⟨f, hf, h1⟩ := okAnd_elim h1
  obtain ⟨pk, hpk, h1⟩ := okAnd_elim h1
  obtain ⟨π, hπ, h1⟩ := okAnd_elim h1
  obtain ⟨f', hf', h2⟩ := okAnd_elim h2
  obtain ⟨pk', hpk', h2⟩ := okAnd_elim h2
  obtain ⟨π', hπ', h2⟩ := okAnd_elim h2
  rw [decide_eq_true_iff] at h1 h2
  obtain ⟨h8, ht⟩ := h1
  obtain ⟨h8', ht'⟩ := h2
  rw [hf, hf'] at h3
  simp only [okAnd, hpk, hpk', decide_eq_true_iff] at h3
  obtain ⟨hkey, hgen⟩ := h3
  have hy := exW_case 3 hf hpk h8 (by decide +kernel) (by decide +kernel) (by decide +kernel) (by decide +kernel)
  have hy' := exW_case 4 hf' hpk' h8' (by decide +kernel) (by decide +kernel) (by decide +kernel) (by decide +kernel)
  refine ⟨_, _, hy, hy', hkey, rfl, ⟨π, _, _, hπ⟩, ⟨π', _, _, hπ'⟩,
    fun π => decide (trace pk.commitKey.powersOfG f.dom.size f.dom.gen 7 π 0 3 = 28), ?_, ?_⟩
  · intro π₁ h1
    have := same_trace hy h1 ⟨_, _, hπ⟩
    rw [decide_eq_true_iff]
    exact this.trans ht
  · intro π₁ h1
    have := (same_trace hy' h1 ⟨_, _, hπ'⟩).trans ht'
    rw [decide_eq_false_iff_not, hkey, h8, hgen, ← h8']
    simp only at this
    rw [this]
    decide +kernel

end Verif.Props.Hiding
