import Verif.Plonk.Permutation
import Verif.Plonk.WirePerm
import Verif.Plonk.Cosets
import Verif.Plonk.GrandProduct
import Verif.Pcs.MultilinearBatch

/-!
# The wire permutation, the identity permutation and the product of a finalized circuit
-/

set_option linter.unusedSectionVars false

namespace Verif.Plonk

open Verif.Circuit Verif.Pcs

variable {p : ℕ} [Fact p.Prime]

/-- rearranging only permutes the rows (no condition on the tables) -/
theorem rearrange_fields {c c' : Circ p} (hok : FinOK c) {n : ℕ} (hn : c.rows.length ≤ n)
    (hr : rearrangeGates (padCirc c n) = .ok c') :
    c'.rows.Perm (c.rows ++ List.replicate (n - c.rows.length) paddingRow) ∧
      c'.numVars = c.numVars ∧ c'.witness = c.witness ∧ c'.ultra = c.ultra ∧ c'.domSize = n ∧
      c'.rangeVars = (padCirc c n).rangeVars := by
  have hlen2 : 2 ≤ c.rows.length := by
    obtain ⟨t, ht⟩ := hok.wf.consts
    rw [ht]; simp
  have hpb : ∀ g ∈ c.pubIds, g < c.rows.length := by
    intro g hg
    obtain ⟨x, h1, _⟩ := hok.wf.pub g hg
    exact (List.getElem?_eq_some_iff.1 h1).1
  have hrlen : (padCirc c n).rows.length = n := by
    show (c.rows ++ List.replicate (n - c.rows.length) (paddingRow (p := p))).length = n
    rw [List.length_append, List.length_replicate]
    omega
  obtain ⟨r1, e1, p1, l1, -⟩ := moveIo_ok (padCirc c n).pubIds 0 (padCirc c n).rows hok.pubSorted (by
    intro g hg
    have := hpb g hg
    omega)
  unfold rearrangeGates at hr
  rw [e1] at hr
  simp only at hr
  split at hr
  · injection hr with hr
    rw [← hr]
    exact ⟨p1, rfl, rfl, rfl, rfl, rfl⟩
  · obtain ⟨r2, e2, p2⟩ := moveLookups_perm (tableIds (padCirc c n).tableGateIds)
      ((padCirc c n).domSize - 2) r1 (by
        rw [l1, hrlen]
        show n - 2 < n
        omega)
    rw [e2] at hr
    simp only at hr
    injection hr with hr
    rw [← hr]
    exact ⟨p2.trans p1, rfl, rfl, rfl, rfl, rfl⟩

theorem rearrange_exists {c : Circ p} (hok : FinOK c) {n : ℕ} (hn : c.rows.length ≤ n) :
    ∃ c', rearrangeGates (padCirc c n) = .ok c' := by
  have hlen2 : 2 ≤ c.rows.length := by
    obtain ⟨t, ht⟩ := hok.wf.consts
    rw [ht]; simp
  have hpb : ∀ g ∈ c.pubIds, g < c.rows.length := by
    intro g hg
    obtain ⟨x, h1, _⟩ := hok.wf.pub g hg
    exact (List.getElem?_eq_some_iff.1 h1).1
  have hrlen : (padCirc c n).rows.length = n := by
    show (c.rows ++ List.replicate (n - c.rows.length) (paddingRow (p := p))).length = n
    rw [List.length_append, List.length_replicate]
    omega
  obtain ⟨r1, e1, p1, l1, -⟩ := moveIo_ok (padCirc c n).pubIds 0 (padCirc c n).rows hok.pubSorted (by
    intro g hg
    have := hpb g hg
    omega)
  unfold rearrangeGates
  rw [e1]
  simp only
  split
  · exact ⟨_, rfl⟩
  · obtain ⟨r2, e2, p2⟩ := moveLookups_perm (tableIds (padCirc c n).tableGateIds)
      ((padCirc c n).domSize - 2) r1 (by
        rw [l1, hrlen]
        show n - 2 < n
        omega)
    rw [e2]
    exact ⟨_, rfl⟩

theorem wireVecs_length (c : Circ p) : (wireVecs c).length = numWireTypes c := by
  unfold wireVecs numWireTypes
  cases c.ultra <;> rfl

/-- the wire vectors are full -/
structure FullWires (c : Circ p) (n : ℕ) : Prop where
  len : ∀ v ∈ wireVecs c, v.length = n
  bound : ∀ s v, varAt (wireVecs c) s = some v → v < c.numVars
  wit : c.witness.length = c.numVars
  dom : c.domSize = n

theorem mem_of_varAt {vecs : List (List ℕ)} {s : ℕ × ℕ} {v : ℕ} (h : varAt vecs s = some v) :
    ∃ l ∈ vecs, v ∈ l := by
  unfold varAt at h
  rw [Option.bind_eq_some_iff] at h
  obtain ⟨l, h1, h2⟩ := h
  exact ⟨l, List.mem_of_getElem? h1, List.mem_of_getElem? h2⟩

theorem rearrange_full {c c' : Circ p} (hok : FinOK c) {n : ℕ} (hn : c.rows.length ≤ n)
    (hrv : c.rangeVars.length ≤ n)
    (hr : rearrangeGates (padCirc c n) = .ok c') : FullWires c' n := by
  obtain ⟨h1, h2, h3, h4, h5, h6⟩ := rearrange_fields hok hn hr
  have hlen : c'.rows.length = n := by
    rw [h1.length_eq, List.length_append, List.length_replicate]
    omega
  have htwo := hok.wf.two
  have hwires : ∀ r ∈ c'.rows, r.w0 < c.numVars ∧ r.w1 < c.numVars ∧ r.w2 < c.numVars ∧
      r.w3 < c.numVars ∧ r.w4 < c.numVars := by
    intro r hr
    rcases List.mem_append.1 (h1.mem_iff.1 hr) with h | h
    · exact hok.wf.wires r h
    · rw [List.eq_of_mem_replicate h]
      simp [paddingRow]
      omega
  have hrv' : ∀ k, c.ultra = some k → c'.rangeVars = resize n c.rangeVars := by
    intro k hk
    rw [h6]
    show (match c.ultra with | none => c.rangeVars | some _ => resize n c.rangeVars) = _
    rw [hk]
  have hmem : ∀ v ∈ wireVecs c', v = c'.rows.map Row.w0 ∨ v = c'.rows.map Row.w1 ∨
      v = c'.rows.map Row.w2 ∨ v = c'.rows.map Row.w3 ∨ v = c'.rows.map Row.w4 ∨
      ((∃ k, c.ultra = some k) ∧ v = c'.rangeVars) := by
    intro v hv
    unfold wireVecs at hv
    rw [h4] at hv
    rcases hu : c.ultra with _ | k
    · rw [hu] at hv
      simp at hv
      tauto
    · rw [hu] at hv
      simp at hv
      simp
      tauto
  refine ⟨?_, ?_, by rw [h3, h2, hok.wf.len], h5⟩
  · intro v hv
    rcases hmem v hv with rfl | rfl | rfl | rfl | rfl | ⟨⟨k, hk⟩, rfl⟩ <;>
      try (rw [List.length_map, hlen])
    rw [hrv' k hk]
    simp [resize]
    omega
  · intro s v hv
    obtain ⟨l, hl, hv⟩ := mem_of_varAt hv
    rw [h2]
    rcases hmem l hl with rfl | rfl | rfl | rfl | rfl | ⟨⟨k, hk⟩, rfl⟩
    · obtain ⟨r, hr, rfl⟩ := List.mem_map.1 hv; exact (hwires r hr).1
    · obtain ⟨r, hr, rfl⟩ := List.mem_map.1 hv; exact (hwires r hr).2.1
    · obtain ⟨r, hr, rfl⟩ := List.mem_map.1 hv; exact (hwires r hr).2.2.1
    · obtain ⟨r, hr, rfl⟩ := List.mem_map.1 hv; exact (hwires r hr).2.2.2.1
    · obtain ⟨r, hr, rfl⟩ := List.mem_map.1 hv; exact (hwires r hr).2.2.2.2
    · rw [hrv' k hk] at hv
      rcases mem_resize hv with h | rfl
      · exact hok.wf.ranges v h
      · omega

theorem wirePermutation_ok {c : Circ p} {n : ℕ} (h : FullWires c n) :
    wirePermutation c = .ok (permOf c.numVars n (wireVecs c)) := by
  unfold wirePermutation
  rw [variableWires_ok h.bound]
  simp only
  unfold permOf
  rw [wireVecs_length, h.dom]

theorem rangeVars_le_slots {c : Circ p} (hc : FinOK c) : c.rangeVars.length ≤ numSlots c := by
  unfold numSlots
  split
  · rename_i h
    rw [hc.noUltra h]
    simp
  · omega

/-- everything about a finalized built circuit -/
theorem finalized_full {S : ℕ} {root : ZMod p} {rnd : List (ZMod p)} {c : Circ p} {f : FCirc p}
    (hok : FinOK c) (hf : finalize S root rnd c = .ok f) :
    FullWires f.circ f.dom.size ∧ f.perm = permOf f.circ.numVars f.dom.size (wireVecs f.circ) ∧
      ∃ ks, Distinct f.dom.size ks ∧ ks.length = numWireTypes f.circ ∧
        f.ids = extIdPermutation ks f.dom := by
  obtain ⟨hd, -, hr, hp, ks, hks, hid⟩ := finalize_ok hf
  have hn := newDomain_size hd
  have h1 := rows_le_numSlots c
  have h2 := rangeVars_le_slots hok
  have hfull := rearrange_full hok (by omega) (by omega) hr
  refine ⟨hfull, ?_, ks, (cosetReps_distinct hks).1, (cosetReps_distinct hks).2, hid⟩
  rw [wirePermutation_ok hfull] at hp
  injection hp with hp
  exact hp.symm

/-! ### the identity permutation -/

theorem extId_length (ks : List (ZMod p)) (dom : Domain (ZMod p)) :
    (extIdPermutation ks dom).length = ks.length * dom.size := by
  unfold extIdPermutation
  rw [List.length_flatMap]
  simp

theorem extId_get (dom : Domain (ZMod p)) (j : ℕ) (hj : j < dom.size) : ∀ (ks : List (ZMod p)) (i : ℕ),
    i < ks.length →
    (extIdPermutation ks dom)[i * dom.size + j]? = some (ks.getD i 0 * dom.gen ^ j) := by
  intro ks
  induction ks with
  | nil => intro i hi; simp at hi
  | cons k ks ih =>
    intro i hi
    have e : extIdPermutation (k :: ks) dom =
        (List.range dom.size).map (fun j => k * dom.gen ^ j) ++ extIdPermutation ks dom := by
      unfold extIdPermutation
      rw [List.flatMap_cons]
    rw [e]
    cases i with
    | zero =>
      rw [List.getElem?_append_left (by simpa using hj)]
      simp [hj]
    | succ i =>
      rw [List.getElem?_append_right (by rw [List.length_map, List.length_range]; nlinarith)]
      rw [List.length_map, List.length_range,
        show (i + 1) * dom.size + j - dom.size = i * dom.size + j by
          rw [Nat.add_mul, Nat.one_mul]; omega]
      rw [ih i (by simpa using hi)]
      rfl

/-- the identity labels as a function of the slot -/
def idLabel (f : FCirc p) (s : ℕ × ℕ) : ZMod p := f.ids.getD (s.1 * f.dom.size + s.2) 0

theorem gen_of_newDomain {S : ℕ} {root : ZMod p} (hroot : IsPrimitiveRoot root (2 ^ S)) {m : ℕ}
    {dom : Domain (ZMod p)} (h : newDomain S root m = some dom) :
    IsPrimitiveRoot dom.gen dom.size ∧ 0 < dom.size := by
  unfold newDomain at h
  split at h
  · cases h
  · rename_i hS
    injection h with h
    subst h
    exact ⟨gen_primitive S root hroot _ (by omega), by unfold Domain.size; positivity⟩

theorem idLabel_inj {f : FCirc p} {ks : List (ZMod p)} (hd : Distinct f.dom.size ks)
    (hid : f.ids = extIdPermutation ks f.dom) (hg : IsPrimitiveRoot f.dom.gen f.dom.size)
    {s t : ℕ × ℕ} (hs : IsSlot ks.length f.dom.size s) (ht : IsSlot ks.length f.dom.size t)
    (h : idLabel f s = idLabel f t) : s = t := by
  unfold idLabel at h
  rw [hid, List.getD_eq_getElem?_getD, List.getD_eq_getElem?_getD, extId_get f.dom s.2 hs.2 ks s.1 hs.1,
    extId_get f.dom t.2 ht.2 ks t.1 ht.1] at h
  simp only [Option.getD_some] at h
  have hpow : ∀ k : ℕ, (f.dom.gen ^ k) ^ f.dom.size = 1 := by
    intro k
    rw [← pow_mul, mul_comm, pow_mul, hg.pow_eq_one, one_pow]
  have hN : (ks.getD s.1 0) ^ f.dom.size = (ks.getD t.1 0) ^ f.dom.size := by
    have := congrArg (· ^ f.dom.size) h
    simpa only [mul_pow, hpow, mul_one] using this
  have hs1 : ks.getD s.1 0 = ks[s.1]'hs.1 := by
    rw [List.getD_eq_getElem?_getD, List.getElem?_eq_getElem hs.1]; rfl
  have ht1 : ks.getD t.1 0 = ks[t.1]'ht.1 := by
    rw [List.getD_eq_getElem?_getD, List.getElem?_eq_getElem ht.1]; rfl
  have e1 : s.1 = t.1 := by
    rw [hs1, ht1] at hN
    rcases lt_trichotomy s.1 t.1 with hlt | he | hlt
    · exact absurd hN (List.pairwise_iff_getElem.1 hd.2 s.1 t.1 hs.1 ht.1 hlt)
    · exact he
    · exact absurd hN.symm (List.pairwise_iff_getElem.1 hd.2 t.1 s.1 ht.1 hs.1 hlt)
  have hk0 : ks.getD s.1 0 ≠ 0 := by
    intro h0
    have := hd.1 _ (List.getElem_mem hs.1)
    rw [← hs1, h0, zero_pow (by have := hs.2; omega)] at this
    exact this rfl
  rw [← e1] at h
  have h2 := mul_left_cancel₀ hk0 h
  exact Prod.ext e1 (hg.pow_inj hs.2 ht.2 h2)

/-! ### the product -/

theorem rowFactors_ok {f : FCirc p} (hfull : FullWires f.circ f.dom.size)
    (hids : f.ids.length = numWireTypes f.circ * f.dom.size)
    (hplen : f.perm.length = (wireVecs f.circ).length * f.dom.size)
    (hnext : ∀ s, IsSlot (wireVecs f.circ).length f.dom.size s →
      IsSlot (wireVecs f.circ).length f.dom.size (nextSlot f.dom.size f.perm s))
    (v : ℕ × ℕ → ZMod p)
    (hv : ∀ s x, varAt (wireVecs f.circ) s = some x → v s = f.circ.val x)
    (β γ : ZMod p) (j : ℕ) (hj : j < f.dom.size) : ∀ (is : List ℕ) (ab : ZMod p × ZMod p),
    (∀ i ∈ is, i < numWireTypes f.circ) →
    rowFactors f β γ j is ab = .ok
      (ab.1 * (is.map (fun i => v (i, j) + γ + β * idLabel f (i, j))).prod,
       ab.2 * (is.map (fun i => v (i, j) + γ + β *
         idLabel f (nextSlot f.dom.size f.perm (i, j)))).prod) := by
  have hW := wireVecs_length f.circ
  intro is
  induction is with
  | nil => intro ab _; simp [rowFactors]
  | cons i is ih =>
    rintro ⟨a, b⟩ hb
    have hi := hb i (by simp)
    have hslot : IsSlot (wireVecs f.circ).length f.dom.size (i, j) := ⟨by rw [hW]; exact hi, hj⟩
    obtain ⟨x, hx⟩ := (isSlot_iff rfl hfull.len (i, j)).1 hslot
    have hxm := hfull.bound _ _ hx
    have hwire : wireAt f.circ i j = some x := by
      unfold varAt at hx
      rw [Option.bind_eq_some_iff] at hx
      obtain ⟨l, h1, h2⟩ := hx
      unfold wireAt
      simp only at h1 h2
      rw [h1, Option.map_some, List.getD_eq_getElem?_getD, h2]
      rfl
    have hwit : f.circ.witness[x]? = some (v (i, j)) := by
      rw [hv _ _ hx]
      unfold Circ.val
      rw [List.getD_eq_getElem?_getD, List.getElem?_eq_getElem (by rw [hfull.wit]; exact hxm)]
      rfl
    have hid : ∀ s, IsSlot (wireVecs f.circ).length f.dom.size s →
        f.ids[s.1 * f.dom.size + s.2]? = some (idLabel f s) := by
      intro s hs
      have := slot_lt hs
      rw [hW] at this
      unfold idLabel
      rw [List.getD_eq_getElem?_getD, List.getElem?_eq_getElem (by omega)]
      rfl
    have hp : f.perm[i * f.dom.size + j]? = some (nextSlot f.dom.size f.perm (i, j)) := by
      have : i * f.dom.size + j < (wireVecs f.circ).length * f.dom.size := slot_lt hslot
      unfold nextSlot
      rw [List.getD_eq_getElem?_getD, List.getElem?_eq_getElem (by omega)]
      rfl
    have hns := hnext (i, j) hslot
    unfold rowFactors
    rw [hwire]
    simp only
    rw [hwit, hid (i, j) hslot, hp]
    simp only
    rw [hid _ hns]
    simp only
    rw [ih _ (fun i' hi' => hb i' (by simp [hi']))]
    simp only [List.map_cons, List.prod_cons, mul_assoc]

theorem prodLoop_ok {f : FCirc p} {β γ : ZMod p} {A B : ℕ → ZMod p} : ∀ (js : List ℕ) (prev : ZMod p),
    (∀ j ∈ js, rowFactors f β γ j (List.range (numWireTypes f.circ)) (1, 1) = .ok (A j, B j)) →
    (∀ j ∈ js, B j ≠ 0) →
    ∃ l, prodLoop f β γ js prev = .ok l ∧ l.length = js.length ∧
      ∀ i (hi : i < js.length), (prev :: l).getD (i + 1) 0 * B js[i] = (prev :: l).getD i 0 * A js[i] := by
  intro js
  induction js with
  | nil => intro prev _ _; exact ⟨[], rfl, rfl, fun i hi => absurd hi (by simp)⟩
  | cons j js ih =>
    intro prev h1 h2
    have hB := h2 j (by simp)
    obtain ⟨l, e, hl, hrec⟩ := ih (prev * A j / B j) (fun i hi => h1 i (by simp [hi]))
      (fun i hi => h2 i (by simp [hi]))
    refine ⟨prev * A j / B j :: l, ?_, by simp [hl], ?_⟩
    · unfold prodLoop
      rw [h1 j (by simp)]
      simp only
      rw [if_neg hB, e]
    · intro i hi
      cases i with
      | zero =>
        show prev * A j / B j * B j = prev * A j
        rw [div_mul_cancel₀ _ hB]
      | succ i => exact hrec i (by simpa using hi)

theorem prodLoop_panic {f : FCirc p} {β γ : ZMod p} {A B : ℕ → ZMod p} : ∀ (js : List ℕ) (prev : ZMod p),
    (∀ j ∈ js, rowFactors f β γ j (List.range (numWireTypes f.circ)) (1, 1) = .ok (A j, B j)) →
    (∃ j ∈ js, B j = 0) → prodLoop f β γ js prev = .error .panic := by
  intro js
  induction js with
  | nil => intro prev _ h; obtain ⟨j, hj, _⟩ := h; simp at hj
  | cons j js ih =>
    intro prev h1 h2
    unfold prodLoop
    rw [h1 j (by simp)]
    simp only
    by_cases hB : B j = 0
    · rw [if_pos hB]
    · rw [if_neg hB, ih _ (fun i hi => h1 i (by simp [hi]))]
      obtain ⟨i, hi, h0⟩ := h2
      rcases List.mem_cons.1 hi with rfl | hi
      · exact absurd h0 hB
      · exact ⟨i, hi, h0⟩

/-- an accumulator gives equality of the products -/
theorem accumulate {F : Type} [Field F] (z A B : ℕ → F) : ∀ n : ℕ,
    (∀ j < n, z (j + 1) * B j = z j * A j) →
    z n * ∏ j ∈ Finset.range n, B j = z 0 * ∏ j ∈ Finset.range n, A j := by
  intro n
  induction n with
  | zero => intro _; simp
  | succ n ih =>
    intro h
    rw [Finset.prod_range_succ, Finset.prod_range_succ]
    have h1 := ih (fun j hj => h j (by omega))
    have h2 := h n (by omega)
    calc z (n + 1) * ((∏ j ∈ Finset.range n, B j) * B n)
        = (z (n + 1) * B n) * ∏ j ∈ Finset.range n, B j := by ring
      _ = (z n * ∏ j ∈ Finset.range n, B j) * A n := by rw [h2]; ring
      _ = _ := by rw [h1]; ring

end Verif.Plonk
