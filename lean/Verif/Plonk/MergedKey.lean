import Verif.Plonk.BatchArg
import Verif.Plonk.ProverCircuit
import Verif.Props.Lagrange

/-!
# Keys of merged circuits

The sum of the keys of two circuits of type A and B is the key of the merged circuit: the selectors and the extended
permutations add up (C27), the inverse transform and the commitments are additive.
-/

set_option linter.unusedSectionVars false

namespace Verif.Plonk

open Verif.Circuit Verif.Pcs Polynomial
open Verif.Props.Finalize Verif.Props.Verifier Verif.Props.EndToEnd Verif.Props.Merge
open Verif.Props.CopyConstraints (SlotVar width slots next label rowNum rowDen Linked linked_of)

/-! ## Additivity -/

section
variable {F G : Type} [Field F] [DecidableEq F] [AddCommGroup G] [Module F G] [DecidableEq G]

theorem addPoly_zipWith : ∀ {p q : List F}, p.length = q.length → addPoly p q = List.zipWith (· + ·) p q
  | [], [], _ => rfl
  | a :: p, b :: q, h => by
    simp only [addPoly, List.zipWith_cons_cons]
    rw [addPoly_zipWith (by simpa using h)]

theorem msm_add : ∀ (b : List G) {p q : List F}, p.length = q.length →
    msm b (addPoly p q) = msm b p + msm b q
  | [], p, q, _ => by simp [msm]
  | b :: l, [], [], _ => by simp [msm, addPoly]
  | b :: l, x :: p, y :: q, h => by
    have := msm_add l (p := p) (q := q) (by simpa using h)
    unfold msm at this ⊢
    simp only [addPoly, List.zipWith_cons_cons, List.sum_cons, this, add_smul]
    abel

theorem msm_skip : ∀ (b : List G) (p : List F),
    msm (b.drop (skipLeadingZeros p).1) (skipLeadingZeros p).2 = msm b p
  | b, [] => by simp [skipLeadingZeros]
  | [], x :: p => by simp [msm]
  | b :: l, x :: p => by
    by_cases hx : x = 0
    · have := msm_skip l p
      unfold skipLeadingZeros at this ⊢
      rw [List.takeWhile_cons_of_pos (by simpa using hx), List.dropWhile_cons_of_pos (by simpa using hx)]
      simp only [List.length_cons, List.drop_succ_cons] at this ⊢
      rw [this, hx]
      simp [msm]
    · unfold skipLeadingZeros
      rw [List.takeWhile_cons_of_neg (by simpa using hx), List.dropWhile_cons_of_neg (by simpa using hx)]
      rfl

theorem skip_le (p : List F) : (skipLeadingZeros p).1 ≤ p.length := by
  unfold skipLeadingZeros
  exact (List.takeWhile_prefix _).length_le

/-- a commitment with enough bases is the multi-scalar multiplication -/
theorem commit_msm (k : ProverParam G) {p : List F} (h : p.length ≤ k.powersOfG.length) :
    commit k p = .ok (msm k.powersOfG p) := by
  have := skip_le p
  unfold commit msmPoly Pcs.degree
  rw [if_neg (by omega)]
  simp only
  rw [if_neg (by omega), msm_skip]

theorem batchCommit_msm (k : ProverParam G) {ps : List (List F)} (h : ∀ p ∈ ps, p.length ≤ k.powersOfG.length) :
    batchCommit k ps = .ok (ps.map (msm k.powersOfG)) := by
  unfold batchCommit
  exact except_mapM fun p hp => commit_msm k (h p hp)

theorem evalAt_add (x : F) : ∀ {p q : List F}, p.length = q.length →
    evalAt (List.zipWith (· + ·) p q) x = evalAt p x + evalAt q x
  | [], [], _ => by simp [evalAt]
  | a :: p, b :: q, h => by
    rw [List.zipWith_cons_cons, evalAt_cons, evalAt_cons, evalAt_cons, evalAt_add x (by simpa using h)]
    simp only [smul_eq_mul]
    ring

theorem ifft_add (d : Domain F) {p q : List F} (h : p.length = q.length) :
    d.ifft (List.zipWith (· + ·) p q) = addPoly (d.ifft p) (d.ifft q) := by
  rw [addPoly_zipWith (by simp [Domain.ifft])]
  unfold Domain.ifft
  rw [List.zipWith_map, List.zipWith_self]
  refine List.map_congr_left fun k _ => ?_
  rw [evalAt_add _ h, smul_add]

end

/-! ## The merged key -/

section
variable {p : ℕ} [Fact p.Prime] {G G2 : Type} [AddCommGroup G] [Module (ZMod p) G] [DecidableEq G]
  [AddCommGroup G2] [Module (ZMod p) G2] [DecidableEq G2]
variable {S : ℕ} {root : ZMod p} {rnd : List (ZMod p)} {c1 c2 : Circ p} {a b f : FCirc p}

theorem allSelectors_turbo {c : Circ p} (h : c.ultra = none) :
    allSelectors c = ([(·.lc0), (·.lc1), (·.lc2), (·.lc3), (·.mul0), (·.mul1), (·.hash0), (·.hash1), (·.hash2), (·.hash3),
      (·.o), (·.c), (·.ecc)] : List (Sel p → ZMod p)).map fun q => c.rows.map fun r => q r.sel := by
  unfold allSelectors
  rw [h]
  rfl

/-- what the two circuits have in common with the merged one -/
theorem pair_common (h : Pair S root rnd c1 c2 a b) (hpos : c1.pubIds ≠ []) (hf : merge a b = .ok f) :
    a.dom = f.dom ∧ b.dom = f.dom ∧ a.circ.ultra = none ∧ b.circ.ultra = none ∧ f.circ.ultra = none ∧
      a.circ.rows.length = f.dom.size ∧ b.circ.rows.length = f.dom.size ∧ f.circ.rows.length = f.dom.size ∧
      a.circ.pubIds.length = c1.pubIds.length ∧ b.circ.pubIds.length = c2.pubIds.length ∧
      f.circ.pubIds.length = c1.pubIds.length + c2.pubIds.length := by
  obtain ⟨f1, f2, n, i⟩ := info' h hpos hf
  have hl1 := i.r1.len
  have hl2 := i.r2.len
  have hA : a.circ.rows = f1.circ.rows ++ List.replicate n paddingRow := by rw [i.circA]; rfl
  have hB : b.circ.rows = (f2.circ.rows ++ List.replicate n paddingRow).reverse := by rw [i.circB]; rfl
  refine ⟨i.dom.symm, i.dom'.symm.trans i.dom.symm, ?_, ?_, i.merged.ultra, ?_, ?_, ?_, ?_, ?_, ?_⟩
  · rw [i.circA]; exact i.r1.ultra.trans i.u1
  · rw [i.circB]; exact i.r2.ultra.trans i.u2
  · rw [hA, i.merged.size, List.length_append, List.length_replicate]; omega
  · rw [hB, i.merged.size, List.length_reverse, List.length_append, List.length_replicate]; omega
  · rw [i.merged.length hl1 hl2, i.merged.size]
  · rw [i.circA]; show f1.circ.pubIds.length = _; rw [i.r1.pubIds, List.length_range]
  · rw [i.circB]
    show (f2.circ.pubIds.map _).length = _
    rw [List.length_map, i.r2.pubIds, List.length_range]
  · rw [i.merged.pubIds, List.length_append, List.length_map, i.r1.pubIds, i.r2.pubIds, List.length_range,
      List.length_range]

theorem chunk_zipWith {la lb : List (ZMod p)} (i n : ℕ) :
    ((List.zipWith (· + ·) la lb).drop i).take n = List.zipWith (· + ·) ((la.drop i).take n) ((lb.drop i).take n) := by
  rw [List.drop_zipWith, List.take_zipWith]

/-- what preprocessing computes for a TurboPlonk circuit -/
theorem preprocess_turbo {srs : Srs G G2} {pk : PKey (ZMod p) G G2} (hu : f.circ.ultra = none)
    (hr : f.circ.rows.length = f.dom.size) :
    preprocess rnd srs f = .ok pk ↔ ∃ l ck ok k, extPermutation f = .ok l ∧
      trim srs (f.dom.size + 2) = .ok (ck, ok) ∧ cosetReps rnd 5 f.dom.size = .ok k ∧
      pk = { sigmas := (List.range 5).map fun i => f.dom.ifft ((l.drop (i * f.dom.size)).take f.dom.size)
             selectors := (allSelectors f.circ).map f.dom.ifft
             commitKey := ck, lookup := none
             vk := { domSize := f.dom.size, numInputs := f.circ.pubIds.length
                     sigmas := (List.range 5).map fun i =>
                       msm ck.powersOfG (f.dom.ifft ((l.drop (i * f.dom.size)).take f.dom.size))
                     selectors := (allSelectors f.circ).map fun v => msm ck.powersOfG (f.dom.ifft v)
                     k := k, openKey := ok, merged := false, lookup := none } } := by
  have h5 : numWireTypes f.circ = 5 := by unfold numWireTypes; rw [hu]
  have htrim : ∀ ck ok, trim srs (f.dom.size + 2) = .ok (ck, ok) →
      ¬ srs.powersOfG.length < f.dom.size + 2 ∧ f.dom.size ≤ ck.powersOfG.length := by
    intro ck ok ht
    unfold trim trimWithVerifierDegree at ht
    split_ifs at ht with h1 h2 h3 h4 h5
    have := Except.ok.inj ht
    simp only [Prod.mk.injEq] at this
    rw [← this.1]
    simp only [List.length_take]
    omega
  have hcom : ∀ {ck : ProverParam G} (l : List (ZMod p)), f.dom.size ≤ ck.powersOfG.length →
      batchCommit ck ((allSelectors f.circ).map f.dom.ifft) =
        .ok ((allSelectors f.circ).map fun v => msm ck.powersOfG (f.dom.ifft v)) ∧
      batchCommit ck ((List.range 5).map fun i => f.dom.ifft ((l.drop (i * f.dom.size)).take f.dom.size)) =
        .ok ((List.range 5).map fun i => msm ck.powersOfG (f.dom.ifft ((l.drop (i * f.dom.size)).take f.dom.size))) := by
    intro ck l hl
    constructor
    · rw [batchCommit_msm ck (fun q hq => ?_), List.map_map]
      · rfl
      · obtain ⟨v, -, rfl⟩ := List.mem_map.1 hq
        simpa [Domain.ifft] using hl
    · rw [batchCommit_msm ck (fun q hq => ?_), List.map_map]
      · rfl
      · obtain ⟨v, -, rfl⟩ := List.mem_map.1 hq
        simpa [Domain.ifft] using hl
  have hsel : selectorPolys f = .ok ((allSelectors f.circ).map f.dom.ifft) := by
    unfold selectorPolys
    rw [if_neg (by omega)]
  have hlk : lookupPk f = .ok none := by
    unfold lookupPk
    rw [hu]
  constructor
  · intro h
    unfold preprocess at h
    split at h
    · cases h
    · obtain ⟨sel, e1, h⟩ := except_bind_ok h
      obtain ⟨sig, e2, h⟩ := except_bind_ok h
      obtain ⟨lpk, e3, h⟩ := except_bind_ok h
      obtain ⟨⟨ck, ok⟩, e4, h⟩ := except_bind_ok h
      simp only at h
      obtain ⟨sc, e5, h⟩ := except_bind_ok h
      obtain ⟨gc, e6, h⟩ := except_bind_ok h
      obtain ⟨lvk, e7, h⟩ := except_bind_ok h
      obtain ⟨k, e8, h⟩ := except_bind_ok h
      have e1 := liftC_ok e1
      have e2 := liftC_ok e2
      have e4 := liftP_ok e4
      have e5 := liftP_ok e5
      have e6 := liftP_ok e6
      have e8 := liftC_ok e8
      rw [h5] at e8
      rw [hsel] at e1
      rw [hlk] at e3
      obtain rfl := Except.ok.inj e1
      obtain rfl := Except.ok.inj e3
      unfold sigmaPolys at e2
      cases hl : extPermutation f with
      | error e => rw [hl] at e2; cases e2
      | ok l =>
        rw [hl, h5] at e2
        obtain rfl := Except.ok.inj e2
        obtain ⟨c1, c2⟩ := hcom l (htrim ck ok e4).2
        rw [c1] at e5
        rw [c2] at e6
        obtain rfl := Except.ok.inj e5
        obtain rfl := Except.ok.inj e6
        obtain rfl : none = lvk := Except.ok.inj e7
        exact ⟨l, ck, ok, k, rfl, e4, e8, (Except.ok.inj h).symm⟩
  · rintro ⟨l, ck, ok, k, hl, ht, hk, rfl⟩
    obtain ⟨t1, t2⟩ := htrim ck ok ht
    obtain ⟨c1, c2⟩ := hcom l t2
    unfold preprocess
    rw [if_neg t1, hsel, hlk, ht, h5, hk]
    unfold sigmaPolys
    rw [hl, h5]
    simp only [liftC, liftP, bind, Except.bind, c1, c2, lookupVk]

/-- the merged key -/
theorem merged_key (h : Pair S root rnd c1 c2 a b) (hpos : c1.pubIds ≠ []) (hf : merge a b = .ok f) {srs : Srs G G2}
    {ka kb : PKey (ZMod p) G G2} (ha : preprocess rnd srs a = .ok ka) (hb : preprocess rnd srs b = .ok kb) :
    ∃ k, preprocess rnd srs f = .ok k ∧ mergePk ka kb = .ok { k with vk := { k.vk with merged := true } } := by
  obtain ⟨da, db, ua, ub, uf, ra, rb, rf, na, nb, nf⟩ := pair_common h hpos hf
  obtain ⟨la, lb, ea, eb, ef, hla, hlb⟩ := C27_sigma h hpos hf
  obtain ⟨la', ck, ok, k, ea', ta, ha', rfl⟩ := (preprocess_turbo ua (by rw [da, ra])).1 ha
  obtain ⟨lb', ck', ok', k', eb', tb, hb', rfl⟩ := (preprocess_turbo ub (by rw [db, rb])).1 hb
  rw [ea] at ea'
  rw [eb] at eb'
  obtain rfl := Except.ok.inj ea'
  obtain rfl := Except.ok.inj eb'
  rw [da] at ta ha'
  rw [db] at tb hb'
  rw [ta] at tb
  rw [ha'] at hb'
  obtain rfl := Except.ok.inj hb'
  have := Except.ok.inj tb
  simp only [Prod.mk.injEq] at this
  obtain ⟨rfl, rfl⟩ := this
  refine ⟨_, (preprocess_turbo uf rf).2 ⟨_, ck, ok, k, ef, ta, ha', rfl⟩, ?_⟩
  have hsig : ∀ i, f.dom.ifft (((List.zipWith (· + ·) la lb).drop (i * f.dom.size)).take f.dom.size) =
      addPoly (f.dom.ifft ((la.drop (i * f.dom.size)).take f.dom.size))
        (f.dom.ifft ((lb.drop (i * f.dom.size)).take f.dom.size)) := by
    intro i
    rw [chunk_zipWith, ifft_add f.dom (by simp [hla, hlb])]
  have hq : ∀ q : Sel p → ZMod p, q {} = 0 → f.dom.ifft (f.circ.rows.map fun r => q r.sel) =
      addPoly (f.dom.ifft (a.circ.rows.map fun r => q r.sel)) (f.dom.ifft (b.circ.rows.map fun r => q r.sel)) := by
    intro q h0
    rw [C27_selectors h hpos hf q h0, ifft_add f.dom (by simp [ra, rb])]
  have hlen : ∀ v w : List (ZMod p), (f.dom.ifft v).length = (f.dom.ifft w).length := fun v w => by simp [Domain.ifft]
  have hmem : ∀ q ∈ ([(·.lc0), (·.lc1), (·.lc2), (·.lc3), (·.mul0), (·.mul1), (·.hash0), (·.hash1), (·.hash2), (·.hash3),
      (·.o), (·.c), (·.ecc)] : List (Sel p → ZMod p)), q {} = 0 := by
    simp
  unfold mergePk mergeVk
  simp only [da, db, na, nb, nf, h.inputs, ne_eq, not_true_eq_false, if_false, Option.isSome_none, Bool.or_self,
    Bool.false_eq_true]
  rw [allSelectors_turbo ua, allSelectors_turbo ub, allSelectors_turbo uf]
  simp only [List.map_map, List.zip_map', Function.comp_def, hsig]
  congr 2
  · exact List.map_congr_left fun q hq' => (hq q (hmem q hq')).symm
  · congr 1
    · refine List.map_congr_left fun i _ => ?_
      rw [msm_add _ (hlen _ _)]
    · refine List.map_congr_left fun q hq' => ?_
      rw [hq q (hmem q hq'), msm_add _ (hlen _ _)]

end

end Verif.Plonk
