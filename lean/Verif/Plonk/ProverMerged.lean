import Verif.Plonk.MergedKey

/-!
# The prover on merged circuits

As `ProverCircuit.lean`, for TurboPlonk circuits that are finalized, or merged from two circuits: with the key of the
circuit, all constraints vanish on the domain.
-/

set_option linter.unusedSectionVars false

namespace Verif.Plonk

open Verif.Circuit Verif.Pcs Polynomial
open Verif.Props.Finalize Verif.Props.Verifier Verif.Props.EndToEnd Verif.Props.Merge
open Verif.Props.CopyConstraints (SlotVar width slots next label rowNum rowDen Linked linked_of)

section
variable {p : ℕ} [Fact p.Prime] {G G2 : Type} [AddCommGroup G] [Module (ZMod p) G] [DecidableEq G]
  [AddCommGroup G2] [Module (ZMod p) G2] [DecidableEq G2]
variable {S : ℕ} {root : ZMod p} {rnd : List (ZMod p)} {c1 c2 : Circ p} {a b f : FCirc p}
variable {x : ZMod p} {g : G} {h : G2} {m : ℕ} {pk : PKey (ZMod p) G G2}

/-- the run of a TurboPlonk circuit whose rows hold is a run for polynomials that make its constraints vanish -/
theorem turbo_run {mg : Bool} {I0 : Inst (ZMod p)} {v : ℕ → ZMod p} (hd : Good f.dom) (ho : f.dom.offset = 1)
    (hn : 1 < f.dom.size) (hL : Linked f) (hrows : f.circ.rows.length = f.dom.size) (hu : f.circ.ultra = none)
    (hI0 : KeyOf f I0 mg) (hpi : publicInput f.circ = .ok I0.inputs)
    (hin : ∃ poly, pubInputPoly f = .ok poly ∧ poly.length = f.dom.size ∧
      ∀ j < f.dom.size, evalAt poly (f.dom.gen ^ j) = v j)
    (hval : ∀ j < f.dom.size, I0.pi.eval (f.dom.gen ^ j) = v j)
    (hgates : ∀ (j : ℕ) (row : Row p), f.circ.rows[j]? = some row → row.Holds (v j) f.circ.val)
    (hvk : pk.vk = I0.key (kzg x g) f.dom (openKey x g h)) (hcom : Commits (kzg x g) (f.dom.size + 3) pk.commitKey)
    (hsel : pk.selectors.map toPoly = (List.range I0.nq).map I0.q)
    (hsig : pk.sigmas.map toPoly = (List.range I0.nw).map I0.σ)
    (lsel : ∀ q ∈ pk.selectors, q.length = f.dom.size) (lsig : ∀ q ∈ pk.sigmas, q.length = f.dom.size)
    (hlkpk : pk.lookup = none)
    {mask : Masks (ZMod p)} {τ : Option (ZMod p)} {β γ : ZMod p} {r : Run (ZMod p) G G2}
    (hr : Ran f.dom τ β γ { cs := f.arith, pk := pk, mask := mask, zComm := 0 } r) :
    ∃ I, Tracks (kzg x g) f.dom (openKey x g h) r I ∧ I.nw = numWireTypes f.circ ∧
      Vanish f.dom I (τ.getD 0) β γ := by
  have hleft := ran_left hr rfl
  obtain ⟨hcs, hpk', ⟨ps, hps, hws⟩, hwc, ⟨pip, hpip, hrpi⟩, ⟨zz, hzz, hrz⟩, hzc, hlk⟩ := hleft
  simp only [FCirc.arith] at hps hpip hzz hwc hzc hpk'
  have hps := wirePolys_eq hps
  -- wires
  have hpslen : ps.length = I0.nw := by
    rw [hps, List.length_map, wireVecs_length, hI0.nw, Props.CopyConstraints.width_eq]
  have hwlen : r.wires.length = I0.nw := by rw [hws, List.length_mapIdx, hpslen]
  have hwires : ∀ (i : ℕ) (q : List (ZMod p)), r.wires[i]? = some q → ∃ (v : List ℕ) (a b : ZMod p), (wireVecs f.circ)[i]? = some v ∧
      q = maskPoly f.dom.size [a, b] (f.dom.ifft (v.map f.circ.val)) := by
    intro i q hq
    rw [hws, List.getElem?_mapIdx] at hq
    obtain ⟨q', hq', rfl⟩ := Option.map_eq_some_iff.1 hq
    rw [hps, List.getElem?_map] at hq'
    obtain ⟨v, hv, rfl⟩ := Option.map_eq_some_iff.1 hq'
    exact ⟨v, _, _, hv, rfl⟩
  have hwl : ∀ q ∈ r.wires, q.length ≤ f.dom.size + 2 := by
    intro q hq
    obtain ⟨i, hi, rfl⟩ := List.mem_iff_getElem.1 hq
    obtain ⟨v, a, b, -, e⟩ := hwires i _ (List.getElem?_eq_getElem hi)
    rw [e]
    refine (maskPoly_length _ _ _).trans ?_
    simp [Domain.ifft]
  set w : ℕ → (ZMod p)[X] := fun i => toPoly (r.wires.getD i []) with hw
  have hpow : ∀ j, (f.dom.gen ^ j) ^ f.dom.size = 1 := fun j => by
    rw [← pow_mul, mul_comm, pow_mul, hd.prim.pow_eq_one, one_pow]
  have hcarry : Carries f w f.circ.val := by
    intro s y hs
    obtain ⟨v, hv, hy⟩ := wireVecs_slot hs
    have hi : s.1 < r.wires.length := by
      rw [hwlen, ← hpslen, hps, List.length_map]
      exact (List.getElem?_eq_some_iff.1 hv).1
    obtain ⟨v', a, b, hv', e⟩ := hwires s.1 _ (List.getElem?_eq_getElem hi)
    obtain rfl : v = v' := by
      rw [hv] at hv'
      exact Option.some.inj hv'
    have hvl := hL.full.len v (List.mem_of_getElem? hv)
    have hj : s.2 < f.dom.size := by
      rw [← hvl]
      exact (List.getElem?_eq_some_iff.1 hy).1
    show (toPoly (r.wires.getD s.1 [])).eval _ = _
    rw [List.getD_eq_getElem?_getD, List.getElem?_eq_getElem hi, Option.getD_some, e, maskPoly_eval _ _ _ (hpow _),
      ifft_eval f.dom hd.prim _ (by simp [hvl]) _ hj, List.getD_eq_getElem?_getD, List.getElem?_map, hy]
    rfl
  -- permutation
  have hslot : ∀ s y, SlotVar f.circ s y → wireValue f w s = f.circ.val y := hcarry
  have hden : ∀ j, j + 1 < f.dom.size → rowDen f (wireValue f w) β γ j ≠ 0 := by
    intro j hj h0
    rw [hL.panics (wireValue f w) hslot β γ hj h0] at hzz
    cases hzz
  obtain ⟨Z, hZ, hZ1, hZ2⟩ := hL.polynomial hd.prim (by omega) (wireValue f w) hslot β γ hden
  obtain rfl : Z = zz := by
    rw [hZ] at hzz
    exact Except.ok.inj hzz
  have hZl : Z.length = f.dom.size := by
    unfold prodPermPoly at hZ
    split at hZ
    · cases hZ
    · rw [← Except.ok.inj hZ]
      simp [Domain.ifft]
  have hzl : r.z.length ≤ f.dom.size + 3 := by
    rw [hrz]
    refine (maskPoly_length _ _ _).trans ?_
    rw [hZl]
    simp
  have hz : ∀ j, (toPoly r.z).eval (f.dom.gen ^ j) = evalAt Z (f.dom.gen ^ j) := fun j => by
    rw [hrz, maskPoly_eval _ _ _ (hpow j)]
  -- public input
  obtain ⟨poly, hpoly, hpolyl, hpolyv⟩ := hin
  obtain rfl : poly = pip := by
    rw [hpoly] at hpip
    exact Except.ok.inj hpip
  have hpiI : toPoly r.pi = I0.pi := by
    rw [hrpi, toPoly_norm]
    refine eq_of_degrees_lt_of_eval_index_eq (Finset.range f.dom.size) (v := point f.dom) hd.inj ?_ ?_ ?_
    · have := toPoly_degree_lt poly
      rw [hpolyl] at this
      simpa using this
    · simpa using hI0.pi.1
    · intro j hj
      have hj' := Finset.mem_range.1 hj
      unfold point
      rw [ho, one_mul, toPoly_eval, hpolyv j hj', hval j hj']
  -- lookups
  have hnone : I0.lookup = none := by
    have := hI0.lookup
    rw [hu] at this
    simpa using this
  have hrl : r.lk = none := by
    rcases hlk with ⟨-, h⟩ | ⟨h, -⟩
    · exact h
    · simp [FCirc.arith, hu] at h
  have hA : LkPolysAre pk.lookup r.lk (play I0 w 0 0 (toPoly r.z) 0).lookup := by
    rw [hrl, hlkpk]
    simp only [play, hnone, Option.map_none]
    trivial
  have hnw := (play_nw I0 w 0 0 (toPoly r.z) 0).1
  have hnq := (play_nw I0 w 0 0 (toPoly r.z) 0).2
  have hwp : r.wires.map toPoly = (List.range I0.nw).map w := by
    refine List.ext_getElem (by simp [hwlen]) fun i h1 h2 => ?_
    have hi : i < r.wires.length := by simpa using h1
    simp [hw, List.getD_eq_getElem?_getD, List.getElem?_eq_getElem hi]
  refine ⟨play I0 w 0 0 (toPoly r.z) 0, ?_, ?_, ?_⟩
  · refine ⟨⟨?_, ?_, ?_, ?_, ?_, rfl, hpiI, by rw [hpk']; exact hA⟩, ?_, ?_, ?_, ?_, ?_, ?_, ?_, ?_, ?_, ?_⟩
    · rw [hnw]
      exact hwp
    · rw [hnw, hpk']
      exact hsig
    · rw [hnq, hpk']
      exact hsel
    · rw [hnw, hpk', hvk]
      rfl
    · rw [hpk', hvk]
      rfl
    · rw [hpk', hvk]
      unfold Inst.key
      rw [hnw, hnq]
      simp only [play, Option.map_map, Function.comp_def]
    · rw [hnw]
      rw [hcom.batch (fun l hl => (hwl l hl).trans (by omega)), hwp, List.map_map] at hwc
      exact (Except.ok.inj hwc).symm
    · rw [hcom _ hzl] at hzc
      exact (Except.ok.inj hzc).symm
    · rw [hrl]
      simp [play, hnone]
    · rw [hrl]
      simp [play, hnone]
    · rw [hcs]
      simp only [FCirc.arith, play, Option.isSome_map]
      exact hI0.lookup.symm
    · rw [hcs]
      exact hpi
    · show IsInputs f.dom I0.merged I0.inputs I0.pi
      rw [hI0.merged]
      exact hI0.pi
    · have nd : ∀ P : (ZMod p)[X], P.degree < f.dom.size → P.natDegree ≤ f.dom.size - 1 := fun P hP => by
        by_cases h0 : P = 0
        · rw [h0]; simp
        · rw [degree_eq_natDegree h0] at hP
          have : P.natDegree < f.dom.size := by exact_mod_cast hP
          omega
      refine ⟨?_, ?_, ?_, natDegree_of_length hzl, nd _ hI0.pi.1, ?_⟩
      · intro i hi
        rw [hnw, ← hwlen] at hi
        refine natDegree_of_length (D := f.dom.size + 1) ?_
        rw [List.getD_eq_getElem?_getD, List.getElem?_eq_getElem hi]
        exact hwl _ (List.getElem_mem hi)
      · intro i hi
        rw [hnw] at hi
        exact nd _ (hI0.σDegree i hi)
      · intro i hi
        rw [hnq] at hi
        exact nd _ (hI0.qDegree i hi)
      · intro l hl
        obtain ⟨l0, hl0, rfl⟩ := Option.map_eq_some_iff.1 hl
        rw [hnone] at hl0
        cases hl0
    · rw [RunLen, hpk']
      refine ⟨fun q hq => (hwl q hq).trans (by omega), fun q hq => by rw [lsig q hq]; omega,
        fun q hq => by rw [lsel q hq]; omega, hzl, ?_, ?_⟩
      · intro o ho'
        rw [hrl] at ho'
        cases ho'
      · intro a ha
        rw [hlkpk] at ha
        cases ha
  · rw [hnw, hI0.nw, Props.CopyConstraints.width_eq]
  · intro e he j hj
    unfold Inst.constraints at he
    rcases List.mem_append.1 he with he | he
    · simp only [List.mem_cons, List.not_mem_nil, or_false] at he
      rcases he with rfl | rfl | rfl
      · obtain ⟨row, hrow⟩ : ∃ row, f.circ.rows[j]? = some row := ⟨_, List.getElem?_eq_getElem (by omega)⟩
        exact gate_vanishes hI0 _ _ _ _ hcarry (hval j hj) hrow (hgates j row hrow)
      · refine perm_vanishes hI0 _ _ _ _ _ β γ hj ?_
        rw [hz, hz]
        exact hZ2 j hj
      · refine lag_mul hd ho (by omega) hj _ fun _ => ?_
        have : (toPoly r.z).eval (f.dom.gen ^ 0) = 1 := by
          rw [hz, pow_zero]
          exact hZ1
        show (toPoly r.z - 1).eval _ = 0
        rw [eval_sub, this, eval_one, sub_self]
    · simp [play, hnone] at he

/-! ## Merged circuits -/

/-- the domain of a merged circuit -/
theorem pair_domain (hroot : IsPrimitiveRoot root (2 ^ S)) (h : Pair S root rnd c1 c2 a b) (hpos : c1.pubIds ≠ [])
    (hf : merge a b = .ok f) :
    Good f.dom ∧ f.dom.offset = 1 ∧ newDomain S root f.dom.size = some f.dom ∧ 1 < f.dom.size ∧ Linked f ∧
      (∃ ks, cosetReps rnd (numWireTypes f.circ) f.dom.size = .ok ks ∧ f.ids = extIdPermutation ks f.dom) ∧
      2 * c1.pubIds.length ≤ f.dom.size := by
  obtain ⟨f1, f2, n, i⟩ := info' h hpos hf
  obtain ⟨hd, ho⟩ := good_of_newDomain hroot i.newDom
  have hs := i.merged.size
  have hm1 : c1.pubIds.length ≤ n := by
    have := h.built1.ok.ioCount
    have := List.countP_le_length (p := fun r : Row p => r.sel.io) (l := c1.rows)
    have := rows_le_numSlots c1
    have := newDomain_size (finalize_ok i.fin1).1
    have := i.merged.n1
    omega
  have h1 := List.length_pos_iff.2 hpos
  refine ⟨hd, ho, ?_, by omega, i.linked h, ?_, by omega⟩
  · rw [hs]
    exact i.newDom
  · obtain ⟨-, _, -, -, -, -, -, ks, hks, hids⟩ := finalizeMergeable_ok h.typeA
    have h5 : numWireTypes f.circ = 5 := by unfold numWireTypes; rw [i.merged.ultra]
    exact ⟨ks, by rw [h5, i.dom]; exact hks, by rw [i.ids, i.dom]; exact hids⟩

/-- a merged circuit has a key, for all public inputs of the right numbers -/
theorem merged_inst (hroot : IsPrimitiveRoot root (2 ^ S)) (h : Pair S root rnd c1 c2 a b) (hpos : c1.pubIds ≠ [])
    (hf : merge a b = .ok f) {pi1 pi2 : List (ZMod p)} (h1 : pi1.length = c1.pubIds.length)
    (h2 : pi2.length = c2.pubIds.length) :
    ∃ I : Inst (ZMod p), KeyOf f I true ∧ I.inputs = pi1 ++ pi2 ∧
      ∀ j < f.dom.size, I.pi.eval (f.dom.gen ^ j) = rowInput f.dom.size pi1 pi2 j := by
  obtain ⟨hd, ho, -, hn, hL, -, hsz⟩ := pair_domain hroot h hpos hf
  obtain ⟨da, db, ua, ub, uf, ra, rb, rf, na, nb, nf⟩ := pair_common h hpos hf
  have hi := h.inputs
  obtain ⟨I, k1, k2, k3⟩ := key_ok (mg := true) (inputs := pi1 ++ pi2) hL hd rf (by simp; omega)
    (P := interp f.dom (rowInput f.dom.size pi1 pi2)) ⟨interp_degree _ _, pi1, pi2, rfl, by omega, by omega,
      fun j hj => by
        rw [ho, one_mul, interp_eval hd _ hj]
        unfold rowInput
        split
        · rw [List.getD_eq_getElem?_getD (l := pi2), List.getElem?_eq_none (by omega), Option.getD_none, add_zero]
        · rw [List.getD_eq_getElem?_getD (l := pi1), List.getElem?_eq_none (by omega), Option.getD_none, zero_add]⟩
  refine ⟨I, k1, k2, fun j hj => ?_⟩
  rw [k3, interp_eval hd _ hj]

/-- the merged key of two preprocessed circuits -/
theorem merged_pk (hroot : IsPrimitiveRoot root (2 ^ S)) (hp : Pair S root rnd c1 c2 a b) (hpos : c1.pubIds ≠ [])
    (hf : merge a b = .ok f) (hm : f.dom.size + 2 ≤ m) {ka kb k : PKey (ZMod p) G G2}
    (ha : preprocess rnd (genSrs x g h m 1) a = .ok ka) (hb : preprocess rnd (genSrs x g h m 1) b = .ok kb)
    (hk : mergePk ka kb = .ok k) {I : Inst (ZMod p)} (hI : KeyOf f I true) :
    k.vk = I.key (kzg x g) f.dom (openKey x g h) ∧ Commits (kzg x g) (f.dom.size + 3) k.commitKey ∧
      k.selectors.map toPoly = (List.range I.nq).map I.q ∧ k.sigmas.map toPoly = (List.range I.nw).map I.σ ∧
      (∀ q ∈ k.selectors, q.length = f.dom.size) ∧ (∀ q ∈ k.sigmas, q.length = f.dom.size) ∧ k.lookup = none := by
  obtain ⟨hd, ho, -, hn, hL, ⟨ks, hks, hids⟩, hsz⟩ := pair_domain hroot hp hpos hf
  obtain ⟨-, -, -, -, uf, -, -, rf, -⟩ := pair_common hp hpos hf
  obtain ⟨k', e1, e2⟩ := merged_key hp hpos hf ha hb
  obtain rfl := Except.ok.inj (hk.symm.trans e2)
  obtain ⟨k'', p1, p2, p3, p4, p5, p6⟩ := preprocess_ok hL hd ho rf hks hids (fun k h => by rw [uf] at h; cases h) hI x g h hm
  obtain rfl := Except.ok.inj (p1.symm.trans e1)
  obtain ⟨l1, l2⟩ := preprocess_lengths e1
  refine ⟨?_, ?_, p4, p5, l1, l2, ?_⟩
  · rw [p2, Inst.key, hI.merged]
  · intro l hl
    have : k''.commitKey = ⟨powers x g (f.dom.size + 3)⟩ := by
      cases hkk : k''.commitKey
      rw [hkk] at p3
      simp only at p3
      rw [p3]
      rfl
    show commit k''.commitKey l = _
    rw [this]
    exact commit_toPoly x g _ l hl
  · have hn : I.lookup = none := by
      have := hI.lookup
      rw [uf] at this
      simpa using this
    rw [hn] at p6
    show k''.lookup = none
    cases hl : k''.lookup with
    | none => rfl
    | some a => rw [hl] at p6; exact p6.elim

/-- two circuits of type A and type B that are built, finalized and preprocessed with the secret `x`, merged, and satisfied
with their public inputs -/
structure MHonest (S : ℕ) (root : ZMod p) (rnd : List (ZMod p)) (x : ZMod p) (g : G) (h : G2) (m : ℕ) (c1 c2 : Circ p)
    (a b : FCirc p) (ka kb : PKey (ZMod p) G G2) (f : FCirc p) (k : PKey (ZMod p) G G2) (pi1 pi2 : List (ZMod p)) :
    Prop where
  pair : Pair S root rnd c1 c2 a b
  pos : c1.pubIds ≠ []
  merged : merge a b = .ok f
  size : f.dom.size + 2 ≤ m
  pre1 : preprocess rnd (genSrs x g h m 1) a = .ok ka
  pre2 : preprocess rnd (genSrs x g h m 1) b = .ok kb
  key : mergePk ka kb = .ok k
  pub1 : publicInput c1 = .ok pi1
  pub2 : publicInput c2 = .ok pi2
  sat1 : checkSat c1 pi1 = .ok ()
  sat2 : checkSat c2 pi2 = .ok ()

theorem MHonest.provable (hroot : IsPrimitiveRoot root (2 ^ S)) {ka kb k : PKey (ZMod p) G G2}
    {pi1 pi2 : List (ZMod p)} (H : MHonest S root rnd x g h m c1 c2 a b ka kb f k pi1 pi2) :
    Provable S root x g h f k (pi1 ++ pi2) := by
  obtain ⟨hd, ho, hnew, hn, hL, -, hsz⟩ := pair_domain hroot H.pair H.pos H.merged
  obtain ⟨-, -, -, -, uf, -, -, rf, -⟩ := pair_common H.pair H.pos H.merged
  have s1 := (checkSat_ok H.pair.built1.ok.wf pi1).1 H.sat1
  have s2 := (checkSat_ok H.pair.built2.ok.wf pi2).1 H.sat2
  obtain ⟨I, hI, hin, hval⟩ := merged_inst hroot H.pair H.pos H.merged s1.len s2.len
  obtain ⟨v1, v2, v3, v4, v5, v6, v7⟩ := merged_pk hroot H.pair H.pos H.merged H.size H.pre1 H.pre2 H.key hI
  have hpi := C27_public_input H.pair H.pos H.merged H.pub1 H.pub2
  obtain ⟨-, poly, q1, q2, q3, -⟩ := Props.Lagrange.C57_public_input_merged hroot H.pair H.pos H.merged H.pub1 H.pub2
  refine ⟨hnew, hn, hpi, v2, fun hr => turbo_run hd ho hn hL rf uf hI (by rw [hin]; exact hpi) ⟨poly, q1, q2, q3⟩ hval
    ?_ v1 v2 v3 v4 v5 v6 v7 hr⟩
  obtain ⟨f', hf', -, -, -, hw⟩ := C27_succeeds H.pair H.pos
  obtain rfl := Except.ok.inj (H.merged.symm.trans hf')
  have w1 := H.pair.built1.ok.wf.len
  refine (C27_gates H.pair H.pos H.merged pi1 pi2 s1.len s2.len _).2
    ⟨Sat.congr H.pair.built1.ok.wf (fun i hi => ?_) s1, Sat.congr H.pair.built2.ok.wf (fun i hi => ?_) s2⟩
  · unfold Circ.val
    rw [hw, List.getD_append _ _ _ _ (by omega)]
  · unfold Circ.val
    rw [hw, List.getD_append_right _ _ _ _ (by omega), w1, Nat.add_sub_cancel_left]

end

end Verif.Plonk
