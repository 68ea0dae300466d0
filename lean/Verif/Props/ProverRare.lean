import Verif.Props.ProverOutcome

/-!
# C74: how often the prover fails

The degree of the quotient of a batch, and the numbers of randomizers and challenges for which the prover fails.
-/

set_option linter.unusedSectionVars false

namespace Verif.Props.Prover

open Verif.Circuit Verif.Pcs Verif.Plonk Polynomial
open Verif.Props.Finalize Verif.Props.Verifier Verif.Props.EndToEnd Verif.Props.CopyConstraints

variable {p : ℕ} [Fact p.Prime] {S : ℕ} {root : ZMod p} {rnd : List (ZMod p)}
variable {G G2 GT : Type} [AddCommGroup G] [Module (ZMod p) G] [DecidableEq G]
  [AddCommGroup G2] [Module (ZMod p) G2] [DecidableEq G2]
  [AddCommGroup GT] [Module (ZMod p) GT] [DecidableEq GT]

/-! ## Specification -/

/-- the product of the last randomizers of one instance -/
def lastProduct (nw : ℕ) (m : Masks (ZMod p)) : ZMod p := m.z.2.2 * ∏ j ∈ Finset.range nw, (m.wire j).2

/-- the sum over the instances, with powers of `α ^ 3` (TurboPlonk) or `α ^ 7` (UltraPlonk) -/
def lead (nw : ℕ) (α : ZMod p) (masks : ℕ → Masks (ZMod p)) (len : ℕ) : ZMod p :=
  ∑ i ∈ Finset.range len, (α ^ (if nw = 6 then 7 else 3)) ^ i * lastProduct nw (masks i)

/-- the last randomizers of instance `k` replaced -/
def replaceLast (masks : ℕ → Masks (ZMod p)) (k : ℕ) {nw : ℕ} (v : (Fin nw → ZMod p) × ZMod p) : ℕ → Masks (ZMod p) :=
  fun i => if i = k then
      { masks i with
        wire := fun j => ((masks i).wire j |>.1, if h : j < nw then v.1 ⟨j, h⟩ else ((masks i).wire j).2)
        z := ((masks i).z.1, (masks i).z.2.1, v.2) }
    else masks i

/-! ## The degree of the quotient of a batch -/

theorem instance_top (hroot : IsPrimitiveRoot root (2 ^ S)) {x : ZMod p} {g : G} {h : G2} {m : ℕ} {y : Case p G G2}
    (H : Honest S root rnd x g h m y.circ y.final y.key y.inputs) (hn : 3 ≤ y.final.dom.size)
    {mask : Masks (ZMod p)} {τ : Option (ZMod p)} {β γ : ZMod p} {r : Run (ZMod p) G G2} {I : Inst (ZMod p)}
    (hran : Ran y.final.dom τ β γ { cs := y.final.arith, pk := y.key, mask := mask, zComm := 0 } r)
    (htr : Tracks (kzg x g) y.final.dom (openKey x g h) r I) (α : ZMod p) :
    I.nw = numWireTypes y.final.circ ∧
    (combine (C α) (I.constraints y.final.dom (τ.getD 0) β γ)).natDegree ≤
      y.final.dom.size + 2 + I.nw * (y.final.dom.size + 1) ∧
    (combine (C α) (I.constraints y.final.dom (τ.getD 0) β γ)).coeff
      (y.final.dom.size + 2 + I.nw * (y.final.dom.size + 1)) = α * (1 - y.final.dom.gen ^ 2) * lastProduct I.nw mask := by
  obtain ⟨hdom, -⟩ := finalize_ok H.final
  obtain ⟨hd, ho⟩ := good_of_newDomain hroot hdom
  obtain ⟨J, hJ, hJnw, -⟩ := H.run hroot hran
  have hnw : I.nw = numWireTypes y.final.circ := by
    have h1 := htr.lookup
    have h2 := hJ.lookup
    rw [← hJnw]
    unfold Inst.nw
    cases h3 : I.lookup <;> cases h4 : J.lookup <;> rw [h3] at h1 <;> rw [h4] at h2 <;> simp [h2] at h1 ⊢
  set n := y.final.dom.size with hnn
  obtain ⟨hw, q, hq, hz⟩ := ran_masked hran htr
  have hqlt : (toPoly q).degree < n := by
    rcases prodPerm_cases hroot H β γ with ⟨-, Z, hZ, hl⟩ | ⟨-, hZ⟩
    · rw [hZ] at hq
      obtain rfl := Except.ok.inj hq
      rw [hnn, ← hl]
      exact toPoly_degree_lt _
    · rw [hZ] at hq
      cases hq
  have htop := htr.tight.top hd (by omega) (τ.getD 0) α β γ
  have hwc : ∀ i ∈ Finset.range I.nw, (I.w i).coeff (n + 1) = (mask.wire i).2 := by
    intro i hi
    rw [hw i (Finset.mem_range.1 hi), coeff_add, wireMask_coeff _ (by omega),
      coeff_eq_zero_of_degree_lt ((column_spec hroot H.built H.final i).1.trans_le (by norm_cast; omega)), zero_add]
  rw [Finset.prod_congr rfl hwc, hz, coeff_add, prodMask_coeff _ (by omega),
    coeff_eq_zero_of_degree_lt (hqlt.trans_le (by norm_cast; omega)), zero_add] at htop
  exact ⟨hnw, nd_combine fun e he => htr.tight.constraints hd _ β γ e he, htop⟩

/-- C74: the quotient of a batch of circuits of one kind and of at least three rows has the expected degree unless `α`
or the combination of the products of the last randomizers is zero. -/
theorem C74_batch_degree (hroot : IsPrimitiveRoot root (2 ^ S)) {x : ZMod p} {g : G} {h : G2} {m : ℕ}
    {L : List (Case p G G2)} (hne : L ≠ []) (H : ∀ y ∈ L, Honest S root rnd x g h m y.circ y.final y.key y.inputs)
    {d : Domain (ZMod p)} {nw : ℕ} (hsame : ∀ y ∈ L, y.final.dom = d ∧ numWireTypes y.final.circ = nw) (hn : 3 ≤ d.size)
    {masks : ℕ → Masks (ZMod p)} {τ : Option (ZMod p)} {α β γ : ZMod p} {T : (ZMod p)[X]}
    (hT : IsQuotient x g h d L masks τ α β γ T) :
    T.natDegree = nw * (d.size + 1) + 2 ↔ α ≠ 0 ∧ lead nw α masks L.length ≠ 0 := by
  obtain ⟨Is, hIs, hT⟩ := hT
  have hlen : Is.length = L.length := by
    rw [← hIs.length_eq]; simp [startRuns]
  have hI : ∀ (i : ℕ) (hi : i < Is.length), (Is[i]).nw = nw ∧
      (combine (C α) ((Is[i]).constraints d (τ.getD 0) β γ)).natDegree ≤ d.size + 2 + nw * (d.size + 1) ∧
      (combine (C α) ((Is[i]).constraints d (τ.getD 0) β γ)).coeff (d.size + 2 + nw * (d.size + 1)) =
        α * (1 - d.gen ^ 2) * lastProduct nw (masks i) := by
    intro i hi
    have hi' : i < L.length := hlen ▸ hi
    obtain ⟨r, hran, htr⟩ := hIs.get (i := i) (by simpa [startRuns] using hi') hi
    obtain ⟨e1, e2⟩ := hsame _ (List.getElem_mem hi')
    simp only [startRuns, List.get_eq_getElem, List.getElem_mapIdx] at hran htr
    rw [← e1] at hran htr
    have := instance_top hroot (H _ (List.getElem_mem hi')) (by rw [e1]; exact hn) hran htr α
    rw [e1, e2] at this
    obtain ⟨h1, h2, h3⟩ := this
    rw [h1] at h2 h3
    exact ⟨h1, h2, h3⟩
  obtain ⟨y0, hy0⟩ := List.exists_mem_of_ne_nil L hne
  have hd := (good_of_newDomain hroot (finalize_ok (H y0 hy0).final).1).1
  rw [(hsame y0 hy0).1] at hd
  have hg2 : 1 - d.gen ^ 2 ≠ 0 := by
    intro h0
    have h1 : d.gen ^ 2 = 1 := (sub_eq_zero.1 h0).symm
    have := hd.prim.pow_eq_one_iff_dvd 2 |>.1 h1
    have := Nat.le_of_dvd (by norm_num) this
    omega
  have hIne : Is ≠ [] := by
    rintro rfl
    exact hne (List.length_eq_zero_iff.1 hlen.symm)
  have hfirst : (if firstLookup Is then 7 else 3) = (if nw = 6 then 7 else 3) := by
    obtain ⟨I, Is', rfl⟩ := List.exists_cons_of_ne_nil hIne
    have := (hI 0 (by simp)).1
    simp only [List.getElem_cons_zero] at this
    unfold Inst.nw at this
    rw [← this]
    show (if I.lookup.isSome then 7 else 3) = _
    cases I.lookup.isSome <;> rfl
  rw [alphaBases_eq _ _ (by simpa using hIne), hfirst] at hT
  set s := α ^ (if nw = 6 then 7 else 3) with hs
  have hb : batch d (τ.getD 0) α β γ Is ((List.range Is.length).map (fun j => s ^ j)) =
      ∑ i : Fin Is.length, C (s ^ i.val) * combine (C α) ((Is[i.val]).constraints d (τ.getD 0) β γ) := by
    unfold batch
    rw [← List.sum_ofFn]
    congr 1
    refine List.ext_getElem (by simp) fun i _ _ => ?_
    simp
  rw [hb] at hT
  set N := d.size + 2 + nw * (d.size + 1) with hN
  have hdegle : ((X ^ d.size - 1) * T).natDegree ≤ N := by
    rw [hT]
    refine natDegree_sum_le_of_forall_le _ _ fun i _ => ?_
    exact (natDegree_C_mul_le _ _).trans (hI i.val i.isLt).2.1
  have hcoeff : ((X ^ d.size - 1) * T).coeff N = α * (1 - d.gen ^ 2) * lead nw α masks L.length := by
    rw [hT, finsetSum_coeff]
    simp only [coeff_C_mul]
    rw [Finset.sum_congr rfl (fun i _ => by rw [(hI i.val i.isLt).2.2])]
    rw [Fin.sum_univ_eq_sum_range (fun i => s ^ i * (α * (1 - d.gen ^ 2) * lastProduct nw (masks i))), hlen, lead,
      Finset.mul_sum]
    refine Finset.sum_congr rfl fun i _ => by ring
  have hmon : (X ^ d.size - 1 : (ZMod p)[X]).Monic := monic_X_pow_sub_C 1 (by omega)
  have hnd : (X ^ d.size - 1 : (ZMod p)[X]).natDegree = d.size := natDegree_X_pow_sub_C
  have hdeg : ∀ _ : T ≠ 0, ((X ^ d.size - 1) * T).natDegree = d.size + T.natDegree := by
    intro h0
    rw [hmon.natDegree_mul' h0, hnd]
  have key : T.natDegree = nw * (d.size + 1) + 2 ↔ ((X ^ d.size - 1) * T).coeff N ≠ 0 := by
    constructor
    · intro h1
      have h0 : T ≠ 0 := by rintro rfl; simp at h1
      have h2 := hdeg h0
      have h3 : N = ((X ^ d.size - 1) * T).natDegree := by omega
      rw [h3]
      exact leadingCoeff_ne_zero.2 (mul_ne_zero hmon.ne_zero h0)
    · intro h1
      have h0 : T ≠ 0 := by rintro rfl; simp at h1
      have h2 := hdeg h0
      have h3 := le_natDegree_of_ne_zero h1
      omega
  rw [key, hcoeff]
  simp only [ne_eq, mul_eq_zero, not_or]
  tauto

/-- the hypotheses hold for the UltraPlonk circuit of C74 and a quotient with the expected degree -/
example : ∃ (y : Case 193 (ZMod 193) (ZMod 193)) (τ : Option (ZMod 193)) (α β γ : ZMod 193) (T : (ZMod 193)[X]),
    Honest 6 125 rnd193 (5 : ZMod 193) (1 : ZMod 193) (1 : ZMod 193) 10 y.circ y.final y.key y.inputs ∧
    y.final.dom.size = 8 ∧ numWireTypes y.final.circ = 6 ∧
    IsQuotient (5 : ZMod 193) (1 : ZMod 193) (1 : ZMod 193) y.final.dom [y] exMasks τ α β γ T ∧
    T.natDegree = 6 * (8 + 1) + 2 := by
  obtain ⟨y, π, H, hu, -, hn, hπ, -⟩ := exV_proved
  obtain ⟨quot, hq, hz⟩ := exV_quot
  have hw : numWireTypes y.final.circ = 6 := by
    unfold numWireTypes
    rw [final_ultra H.built H.final, hu]
  obtain ⟨τ, β, γ, hdraw, hout⟩ := C74_outcome (L := [y]) (d := y.final.dom) (nw := numWireTypes y.final.circ)
    (GT := ZMod 193) (prim125) (by simp) (by simpa using H) (by simp) (gen := 5) (by decide) (quot := quot)
    (by rw [hw, hn]; exact hq) (by rw [hn]; exact hz) (LinearMap.mul (ZMod 193) (ZMod 193)) (by decide)
    (fun _ => 7) exOracle none exMasks (fun i => i + 1)
  simp only [List.map_cons, List.map_nil, hπ, reduceCtorEq, and_false, false_or] at hout
  obtain ⟨-, α, T, -, h2, h3, -⟩ := hout
  rw [hw, hn] at h3
  exact ⟨y, τ, α, β, γ, T, H, hn, hw, h2, h3⟩

/-! ## How many randomizers make it wrong -/

theorem count_product (c e : ZMod p) (hc : c ≠ 0) (nw : ℕ) :
    {v : (Fin nw → ZMod p) × ZMod p | c * (v.2 * ∏ j, v.1 j) + e = 0}.ncard ≤ (nw + 1) * p ^ nw := by
  classical
  have hp : NeZero p := ⟨(Fact.out : p.Prime).ne_zero⟩
  have hcard : Fintype.card (Fin nw → ZMod p) = p ^ nw := by simp [ZMod.card]
  have h0 : ∀ j : Fin nw, (Finset.univ.filter (fun v : (Fin nw → ZMod p) × ZMod p => v.1 j = 0)).card ≤ p ^ nw := by
    intro j
    rw [← hcard, ← Finset.card_univ]
    refine Finset.card_le_card_of_injOn (fun v i => if i = j then v.2 else v.1 i) (fun _ _ => Finset.mem_univ _) ?_
    rintro ⟨a, b⟩ ha ⟨a', b'⟩ ha' hab
    simp only [Finset.coe_filter, Finset.mem_univ, true_and, Set.mem_ofPred_eq] at ha ha'
    have hj := congrFun hab j
    simp only [if_true] at hj
    refine Prod.ext (funext fun i => ?_) hj
    by_cases hi : i = j
    · subst hi; exact ha.trans ha'.symm
    · have := congrFun hab i
      simpa only [if_neg hi] using this
  have h1 : (Finset.univ.filter (fun v : (Fin nw → ZMod p) × ZMod p =>
      ∏ j, v.1 j ≠ 0 ∧ c * (v.2 * ∏ j, v.1 j) + e = 0)).card ≤ p ^ nw := by
    rw [← hcard, ← Finset.card_univ]
    refine Finset.card_le_card_of_injOn Prod.fst (fun _ _ => Finset.mem_univ _) ?_
    rintro ⟨a, b⟩ ha ⟨a', b'⟩ ha' (rfl : a = a')
    simp only [Finset.coe_filter, Finset.mem_univ, true_and, Set.mem_ofPred_eq] at ha ha'
    refine Prod.ext rfl ?_
    refine mul_right_cancel₀ ha.1 (mul_left_cancel₀ hc ?_)
    linear_combination ha.2 - ha'.2
  have hsub : {v : (Fin nw → ZMod p) × ZMod p | c * (v.2 * ∏ j, v.1 j) + e = 0} ⊆
      (((Finset.univ.biUnion fun j : Fin nw =>
        Finset.univ.filter (fun v : (Fin nw → ZMod p) × ZMod p => v.1 j = 0)) ∪
        Finset.univ.filter (fun v : (Fin nw → ZMod p) × ZMod p =>
          ∏ j, v.1 j ≠ 0 ∧ c * (v.2 * ∏ j, v.1 j) + e = 0) : Finset _) : Set _) := by
    intro v hv
    rw [Finset.mem_coe, Finset.mem_union]
    by_cases hz : ∏ j, v.1 j = 0
    · obtain ⟨j, -, hj⟩ := Finset.prod_eq_zero_iff.1 hz
      exact .inl (Finset.mem_biUnion.2 ⟨j, Finset.mem_univ _, Finset.mem_filter.2 ⟨Finset.mem_univ _, hj⟩⟩)
    · exact .inr (Finset.mem_filter.2 ⟨Finset.mem_univ _, hz, hv⟩)
  refine (Set.ncard_le_ncard hsub (Set.toFinite _)).trans ?_
  rw [Set.ncard_coe_finset]
  refine (Finset.card_union_le _ _).trans ?_
  have h2 := Finset.card_biUnion_le_card_mul (Finset.univ : Finset (Fin nw))
    (fun j => Finset.univ.filter (fun v : (Fin nw → ZMod p) × ZMod p => v.1 j = 0)) (p ^ nw) (fun j _ => h0 j)
  rw [Finset.card_univ, Fintype.card_fin] at h2
  calc _ ≤ nw * p ^ nw + p ^ nw := Nat.add_le_add h2 h1
    _ = _ := by ring

/-- C74: whatever the other randomizers and the challenge `α ≠ 0`, at most `nw + 1` in `p` of the choices of the last
randomizers of any one instance make the degree wrong. -/
theorem C74_batch_rare (nw : ℕ) {α : ZMod p} (hα : α ≠ 0) (masks : ℕ → Masks (ZMod p)) {k len : ℕ} (hk : k < len) :
    {v : (Fin nw → ZMod p) × ZMod p | lead nw α (replaceLast masks k v) len = 0}.ncard ≤ (nw + 1) * p ^ nw ∧
    Nat.card ((Fin nw → ZMod p) × ZMod p) = p * p ^ nw := by
  have hp : NeZero p := ⟨(Fact.out : p.Prime).ne_zero⟩
  constructor
  · set s := α ^ (if nw = 6 then 7 else 3) with hs
    have hs0 : s ^ k ≠ 0 := pow_ne_zero _ (pow_ne_zero _ hα)
    refine le_trans (le_of_eq ?_) (count_product (s ^ k)
      (∑ i ∈ (Finset.range len).erase k, s ^ i * lastProduct nw (masks i)) hs0 nw)
    congr 1
    ext v
    simp only [Set.mem_ofPred_eq, lead, ← hs]
    rw [← Finset.add_sum_erase _ _ (Finset.mem_range.2 hk)]
    have e1 : lastProduct nw (replaceLast masks k v k) = v.2 * ∏ j, v.1 j := by
      simp only [lastProduct, replaceLast, if_true]
      rw [Finset.prod_range]
      simp
    have e2 : ∀ i ∈ (Finset.range len).erase k, s ^ i * lastProduct nw (replaceLast masks k v i) =
        s ^ i * lastProduct nw (masks i) := by
      intro i hi
      simp only [replaceLast, if_neg (Finset.ne_of_mem_erase hi)]
    rw [e1, Finset.sum_congr rfl e2]
  · simp [ZMod.card, mul_comm]

/-- two instances without zero randomizers whose leading terms cancel -/
example : lead (p := 193) 5 2 (fun i => ⟨fun _ => (0, 2), 0, 0, (0, 0, if i = 0 then 1 else 24), 0⟩) 2 = 0 := by
  decide +kernel

/-! ## How many challenges make a denominator zero -/

/-- C74: for every circuit, `τ` and `β ≠ -1`, at most `6 (n - 1) + 2 (n - 2)` values of `γ` make a denominator of a
product zero. -/
theorem C74_defined_rare {x : ZMod p} {g : G} {h : G2} {m : ℕ} {y : Case p G G2}
    (H : Honest S root rnd x g h m y.circ y.final y.key y.inputs) (τ : Option (ZMod p)) {β : ZMod p} (hβ : 1 + β ≠ 0) :
    {γ | ¬ Defined y.final τ β γ}.ncard ≤ 6 * (y.final.dom.size - 1) + 2 * (y.final.dom.size - 2) := by
  classical
  have hp : NeZero p := ⟨(Fact.out : p.Prime).ne_zero⟩
  have hperm : {γ | ¬ PermDefined y.final β γ}.ncard ≤ 6 * (y.final.dom.size - 1) := by
    obtain ⟨v, hv⟩ := slots_exist y.final
    have hw : width y.final.circ ≤ 6 := by
      unfold width
      split_ifs <;> omega
    have e : {γ | ¬ PermDefined y.final β γ} ⊆ ((Finset.image (fun s : ℕ × ℕ => -(v s + β * label y.final (next y.final s)))
        (Finset.range (width y.final.circ) ×ˢ Finset.range (y.final.dom.size - 1)) : Finset (ZMod p)) : Set (ZMod p)) := by
      intro γ hγ
      change ¬ PermDefined y.final β γ at hγ
      unfold PermDefined at hγ
      push Not at hγ
      obtain ⟨v', hv', j, hj, h0⟩ := hγ
      unfold rowDen at h0
      rw [Finset.prod_eq_zero_iff] at h0
      obtain ⟨i, hi, h0⟩ := h0
      have hi := Finset.mem_range.1 hi
      obtain ⟨w, hw', -⟩ := (C23_slots H.built H.final (i, j)).1 (by
        unfold slots
        rw [Finset.mem_product, Finset.mem_range, Finset.mem_range]
        exact ⟨hi, by simp only; omega⟩)
      have e : v' (i, j) = v (i, j) := by rw [hv' _ _ hw', hv _ _ hw']
      rw [e] at h0
      simp only [Finset.coe_image, Set.mem_image, Finset.mem_coe, Finset.mem_product, Finset.mem_range]
      exact ⟨(i, j), ⟨hi, by omega⟩, by linear_combination -h0⟩
    refine (Set.ncard_le_ncard e (Set.toFinite _)).trans ?_
    rw [Set.ncard_coe_finset]
    refine Finset.card_image_le.trans ?_
    simp only [Finset.card_product, Finset.card_range]
    exact Nat.mul_le_mul_right _ hw
  have hlk : ∀ t, {γ | ¬ LookupDefined y.final t β γ}.ncard ≤ 2 * (y.final.dom.size - 2) := by
    intro t
    by_cases hex : ∃ k s a b, y.final.circ.ultra = some k ∧
        sortedVecPolys y.final t (Props.LookupArgument.table y.final k y.final.circ.val t) = .ok (s, a, b)
    · obtain ⟨k, s, a, b, hk, hs⟩ := hex
      set n := y.final.dom.size with hn
      have e : {γ | ¬ LookupDefined y.final t β γ} ⊆ ((Finset.image (fun j : ℕ =>
            -(s.getD j 0 + β * s.getD (j + 1) 0) / (1 + β)) (Finset.range (n - 2)) ∪
          Finset.image (fun j : ℕ => -(s.getD (n - 1 + j) 0 + β * s.getD (n + j) 0) / (1 + β)) (Finset.range (n - 2)) :
          Finset (ZMod p)) : Set (ZMod p)) := by
        intro γ hγ
        change ¬ LookupDefined y.final t β γ at hγ
        unfold LookupDefined at hγ
        push Not at hγ
        obtain ⟨k', s', a', b', hk', hs', j, hj, h0⟩ := hγ
        rw [hk] at hk'
        obtain rfl := Option.some.inj hk'
        rw [hs] at hs'
        obtain ⟨rfl, rfl, rfl⟩ := by simpa using hs'
        rw [Finset.mem_coe, Finset.mem_union, Finset.mem_image, Finset.mem_image]
        unfold Props.LookupArgument.den at h0
        rcases mul_eq_zero.1 h0 with h0 | h0
        · refine .inl ⟨j, Finset.mem_range.2 (by omega), ?_⟩
          rw [div_eq_iff hβ]
          linear_combination -h0
        · refine .inr ⟨j, Finset.mem_range.2 (by omega), ?_⟩
          rw [div_eq_iff hβ]
          linear_combination -h0
      refine (Set.ncard_le_ncard e (Set.toFinite _)).trans ?_
      rw [Set.ncard_coe_finset]
      refine (Finset.card_union_le _ _).trans ?_
      have h1 := Finset.card_image_le (s := Finset.range (n - 2)) (f := fun j : ℕ =>
            -(s.getD j 0 + β * s.getD (j + 1) 0) / (1 + β))
      have h2 := Finset.card_image_le (s := Finset.range (n - 2)) (f := fun j : ℕ =>
            -(s.getD (n - 1 + j) 0 + β * s.getD (n + j) 0) / (1 + β))
      rw [Finset.card_range] at h1 h2
      omega
    · have e : {γ | ¬ LookupDefined y.final t β γ} = ∅ := by
        ext γ
        simp only [Set.mem_ofPred_eq, Set.mem_empty_iff_false, iff_false, not_not]
        intro k s a b h1 h2
        exact absurd ⟨k, s, a, b, h1, h2⟩ hex
      rw [e]; simp
  cases τ with
  | none =>
    refine le_trans (Set.ncard_le_ncard (t := {γ | ¬ PermDefined y.final β γ}) ?_ (Set.toFinite _)) (hperm.trans (by omega))
    intro γ hγ h1
    exact hγ ⟨h1, fun t ht => by cases ht⟩
  | some t =>
    refine le_trans (Set.ncard_le_ncard (t := {γ | ¬ PermDefined y.final β γ} ∪ {γ | ¬ LookupDefined y.final t β γ})
      ?_ (Set.toFinite _)) ((Set.ncard_union_le _ _).trans (Nat.add_le_add hperm (hlk t)))
    intro γ hγ
    by_contra h1
    simp only [Set.mem_union, Set.mem_ofPred_eq, not_or, not_not] at h1
    exact hγ ⟨h1.1, fun t' ht => by cases ht; exact h1.2⟩

end Verif.Props.Prover
