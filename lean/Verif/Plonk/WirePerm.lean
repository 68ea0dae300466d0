import Verif.Plonk.FinalizeSat
import Mathlib.Data.List.Nodup
import Mathlib.Data.List.Flatten

/-!
# The wire permutation goes around the slots of each variable
-/

set_option linter.unusedSectionVars false

namespace Verif.Plonk

open Verif.Circuit Verif.Pcs

variable {p : ℕ} [Fact p.Prime]

/-- the list of (variable, slot) -/
def slotList (vecs : List (List ℕ)) : List (ℕ × (ℕ × ℕ)) :=
  vecs.zipIdx.flatMap (fun v => v.1.zipIdx.map (fun x => (x.1, (v.2, x.2))))

/-- the variable of a slot -/
def varAt (vecs : List (List ℕ)) (s : ℕ × ℕ) : Option ℕ := vecs[s.1]?.bind (fun v => v[s.2]?)

theorem mem_slotList {vecs : List (List ℕ)} {v : ℕ} {s : ℕ × ℕ} :
    (v, s) ∈ slotList vecs ↔ varAt vecs s = some v := by
  obtain ⟨i, j⟩ := s
  unfold slotList varAt
  simp only [List.mem_flatMap, List.mem_map, Prod.mk.injEq, Prod.exists, Option.bind_eq_some_iff,
    List.mem_zipIdx_iff_getElem?]
  constructor
  · rintro ⟨l, i', h1, x, j', h2, rfl, rfl, rfl⟩
    exact ⟨l, h1, h2⟩
  · rintro ⟨l, h1, h2⟩
    exact ⟨l, i, h1, v, j, h2, rfl, rfl, rfl⟩

theorem slotList_nodup (vecs : List (List ℕ)) : ((slotList vecs).map Prod.snd).Nodup := by
  unfold slotList
  rw [List.map_flatMap, List.nodup_flatMap]
  constructor
  · rintro ⟨l, i⟩ _
    rw [List.map_map]
    have : (Prod.snd ∘ fun x : ℕ × ℕ => (x.1, (i, x.2))) = (fun j => (i, j)) ∘ Prod.snd := rfl
    rw [this, ← List.map_map, List.zipIdx_map_snd]
    exact (List.nodup_range').map (fun a b h => by injection h)
  · have h : vecs.zipIdx.Pairwise (fun a b => a.2 ≠ b.2) := by
      have h2 : (vecs.zipIdx.map Prod.snd).Nodup := by
        rw [List.zipIdx_map_snd]
        exact List.nodup_range'
      exact List.pairwise_map.1 h2
    refine h.imp ?_
    rintro ⟨l, i⟩ ⟨l', i'⟩ hne
    show List.Disjoint _ _
    intro x h1 h2
    have e1 : x.1 = i := by
      simp only [List.mem_map] at h1
      obtain ⟨_, ⟨_, _, rfl⟩, rfl⟩ := h1
      rfl
    have e2 : x.1 = i' := by
      simp only [List.mem_map] at h2
      obtain ⟨_, ⟨_, _, rfl⟩, rfl⟩ := h2
      rfl
    exact hne (e1.symm.trans e2)

/-- the slots of a variable, in order -/
def slotsOf (vecs : List (List ℕ)) (v : ℕ) : List (ℕ × ℕ) :=
  ((slotList vecs).filter (fun s => s.1 = v)).map Prod.snd

theorem mem_slotsOf {vecs : List (List ℕ)} {v : ℕ} {s : ℕ × ℕ} :
    s ∈ slotsOf vecs v ↔ varAt vecs s = some v := by
  unfold slotsOf
  rw [List.mem_map, ← mem_slotList]
  constructor
  · rintro ⟨⟨v', s'⟩, h1, rfl⟩
    rw [List.mem_filter] at h1
    obtain ⟨h1, h2⟩ := h1
    have : v' = v := by simpa using h2
    subst this
    exact h1
  · intro h
    exact ⟨(v, s), List.mem_filter.2 ⟨h, by simp⟩, rfl⟩

theorem slotsOf_nodup (vecs : List (List ℕ)) (v : ℕ) : (slotsOf vecs v).Nodup :=
  (slotList_nodup vecs).sublist (List.Sublist.map _ List.filter_sublist)

theorem foldl_modify (slots : List (ℕ × (ℕ × ℕ))) : ∀ (map : List (List (ℕ × ℕ))) (v : ℕ),
    (slots.foldl (fun map s => map.modify s.1 (fun l => l ++ [s.2])) map)[v]? =
      map[v]?.map (fun l => l ++ (slots.filter (fun s => s.1 = v)).map Prod.snd) := by
  induction slots with
  | nil => intro map v; simp
  | cons s slots ih =>
    intro map v
    rw [List.foldl_cons, ih, List.getElem?_modify]
    by_cases h : s.1 = v
    · rw [List.filter_cons_of_pos (by simpa using h)]
      cases map[v]? <;> simp [h]
    · rw [List.filter_cons_of_neg (by simpa using h)]
      cases map[v]? <;> simp [h]

theorem variableWires_ok {m : ℕ} {vecs : List (List ℕ)}
    (h : ∀ s v, varAt vecs s = some v → v < m) :
    variableWires m vecs = .ok ((List.range m).map (slotsOf vecs)) := by
  unfold variableWires
  have h1 : ((slotList vecs).any (fun s => decide (m ≤ s.1))) = false := by
    rw [List.any_eq_false]
    rintro ⟨v, s⟩ hs
    have := h s v (mem_slotList.1 hs)
    simp
    omega
  show (if (slotList vecs).any (fun s => m ≤ s.1) then _ else _) = _
  rw [h1]
  simp only [Bool.false_eq_true, if_false]
  congr 1
  refine List.ext_getElem? ?_
  intro v
  have := foldl_modify (slotList vecs) (List.replicate m []) v
  refine this.trans ?_
  rw [List.getElem?_map]
  by_cases hv : v < m
  · rw [List.getElem?_replicate, if_pos hv, List.getElem?_range hv]
    simp [slotsOf]
  · rw [List.getElem?_replicate, if_neg hv, List.getElem?_eq_none (by simpa using hv)]
    rfl

theorem variableWires_fail {m : ℕ} {vecs : List (List ℕ)} {s : ℕ × ℕ} {v : ℕ}
    (h : varAt vecs s = some v) (hv : m ≤ v) : variableWires m vecs = .error .panic := by
  unfold variableWires
  show (if (slotList vecs).any (fun s => m ≤ s.1) then _ else _) = _
  rw [if_pos]
  rw [List.any_eq_true]
  exact ⟨(v, s), mem_slotList.2 h, by simpa using hv⟩

/-! ### writing the cycles -/

/-- the pairs (slot, next slot) -/
def cyclePairs (wires : List (ℕ × ℕ)) : List ((ℕ × ℕ) × (ℕ × ℕ)) :=
  match wires with
  | [] => []
  | w :: ws => (w :: ws).zip (ws ++ [w])

theorem writeCycle_eq (n : ℕ) (perm wires : List (ℕ × ℕ)) :
    writeCycle n perm wires =
      (cyclePairs wires).foldl (fun perm x => perm.set (x.1.1 * n + x.1.2) x.2) perm := by
  unfold writeCycle cyclePairs
  cases wires <;> rfl

theorem cyclePairs_fst (wires : List (ℕ × ℕ)) : (cyclePairs wires).map Prod.fst = wires := by
  cases wires with
  | nil => rfl
  | cons w ws =>
    unfold cyclePairs
    rw [List.map_fst_zip]
    simp

theorem cyclePairs_get (wires : List (ℕ × ℕ)) (k : ℕ) (hk : k < wires.length) :
    (wires[k], wires[(k + 1) % wires.length]'(Nat.mod_lt _ (by omega))) ∈ cyclePairs wires := by
  cases wires with
  | nil => simp at hk
  | cons w ws =>
    unfold cyclePairs
    refine List.mem_iff_getElem.2 ⟨k, by simpa using hk, ?_⟩
    rw [List.getElem_zip]
    refine Prod.ext rfl ?_
    simp only
    by_cases h : k + 1 < (w :: ws).length
    · have h' : k < ws.length := by simpa using h
      simp only [Nat.mod_eq_of_lt h]
      rw [List.getElem_append_left h']
      rfl
    · have he : k + 1 = (w :: ws).length := by omega
      have h' : k = ws.length := by simpa using he
      simp only [he, Nat.mod_self]
      rw [List.getElem_append_right (by omega)]
      simp [h']

theorem foldl_set (idx : ℕ × ℕ → ℕ) (P : List ((ℕ × ℕ) × (ℕ × ℕ))) : ∀ (perm : List (ℕ × ℕ)),
    (P.map (fun x => idx x.1)).Nodup → (∀ x ∈ P, idx x.1 < perm.length) →
    (P.foldl (fun perm x => perm.set (idx x.1) x.2) perm).length = perm.length ∧
    (∀ j, (∀ x ∈ P, idx x.1 ≠ j) →
      (P.foldl (fun perm x => perm.set (idx x.1) x.2) perm)[j]? = perm[j]?) ∧
    ∀ x ∈ P, (P.foldl (fun perm x => perm.set (idx x.1) x.2) perm)[idx x.1]? = some x.2 := by
  induction P with
  | nil => intro perm _ _; exact ⟨rfl, fun _ _ => rfl, by simp⟩
  | cons x P ih =>
    intro perm hn hb
    rw [List.map_cons, List.nodup_cons] at hn
    obtain ⟨h1, h2, h3⟩ := ih (perm.set (idx x.1) x.2) hn.2 (by
      intro y hy
      rw [List.length_set]
      exact hb y (by simp [hy]))
    rw [List.foldl_cons]
    refine ⟨by rw [h1, List.length_set], ?_, ?_⟩
    · intro j hj
      rw [h2 j (fun y hy => hj y (by simp [hy])), List.getElem?_set_ne (hj x (by simp))]
    · intro y hy
      rcases List.mem_cons.1 hy with rfl | hy
      · rw [h2 _ (fun z hz he => hn.1 (List.mem_map.2 ⟨z, hz, he⟩))]
        simp [hb y (by simp)]
      · exact h3 y hy

theorem foldl_writeCycle (n : ℕ) (map : List (List (ℕ × ℕ))) : ∀ (perm : List (ℕ × ℕ)),
    map.foldl (writeCycle n) perm =
      (map.flatMap cyclePairs).foldl (fun perm x => perm.set (x.1.1 * n + x.1.2) x.2) perm := by
  induction map with
  | nil => intro perm; rfl
  | cons w map ih =>
    intro perm
    rw [List.foldl_cons, ih, List.flatMap_cons, List.foldl_append, writeCycle_eq]

/-- the slots of `W` wire vectors of length `n` -/
def IsSlot (W n : ℕ) (s : ℕ × ℕ) : Prop := s.1 < W ∧ s.2 < n

theorem slot_lt {W n : ℕ} {s : ℕ × ℕ} (h : IsSlot W n s) : s.1 * n + s.2 < W * n := by
  obtain ⟨h1, h2⟩ := h
  calc s.1 * n + s.2 < s.1 * n + n := by omega
    _ = (s.1 + 1) * n := by ring
    _ ≤ W * n := Nat.mul_le_mul_right _ h1

theorem slot_inj {W n : ℕ} {s t : ℕ × ℕ} (hs : IsSlot W n s) (ht : IsSlot W n t)
    (h : s.1 * n + s.2 = t.1 * n + t.2) : s = t := by
  obtain ⟨-, h1⟩ := hs
  obtain ⟨-, h2⟩ := ht
  have hn : 0 < n := by omega
  have e1 : (s.1 * n + s.2) / n = s.1 := by
    rw [mul_comm, Nat.mul_add_div hn, Nat.div_eq_of_lt h1, add_zero]
  have e2 : (t.1 * n + t.2) / n = t.1 := by
    rw [mul_comm, Nat.mul_add_div hn, Nat.div_eq_of_lt h2, add_zero]
  have e : s.1 = t.1 := by rw [← e1, ← e2, h]
  refine Prod.ext e ?_
  rw [e] at h
  omega

theorem isSlot_iff {W n : ℕ} {vecs : List (List ℕ)} (hW : vecs.length = W)
    (hn : ∀ v ∈ vecs, v.length = n) (s : ℕ × ℕ) : IsSlot W n s ↔ ∃ v, varAt vecs s = some v := by
  unfold varAt IsSlot
  constructor
  · rintro ⟨h1, h2⟩
    have h1' : s.1 < vecs.length := by omega
    have hl := hn _ (List.getElem_mem h1')
    refine ⟨(vecs[s.1])[s.2]'(by omega), ?_⟩
    rw [List.getElem?_eq_getElem h1', Option.bind_some, List.getElem?_eq_getElem]
  · rintro ⟨v, hv⟩
    rw [Option.bind_eq_some_iff] at hv
    obtain ⟨l, h1, h2⟩ := hv
    have hl := hn l (List.mem_of_getElem? h1)
    have h1' := (List.getElem?_eq_some_iff.1 h1).1
    have h2' := (List.getElem?_eq_some_iff.1 h2).1
    omega

/-- the permutation written for wire vectors `vecs` with variables below `m` -/
def permOf (m n : ℕ) (vecs : List (List ℕ)) : List (ℕ × ℕ) :=
  ((List.range m).map (slotsOf vecs)).foldl (writeCycle n) (List.replicate (vecs.length * n) (0, 0))

/-- the image of a slot under the permutation -/
def nextSlot (n : ℕ) (perm : List (ℕ × ℕ)) (s : ℕ × ℕ) : ℕ × ℕ := perm.getD (s.1 * n + s.2) (0, 0)

theorem permOf_spec {m n : ℕ} {vecs : List (List ℕ)} (hn : ∀ v ∈ vecs, v.length = n) :
    (permOf m n vecs).length = vecs.length * n ∧
    ∀ v < m, ∀ k (hk : k < (slotsOf vecs v).length),
      nextSlot n (permOf m n vecs) ((slotsOf vecs v)[k]) =
        (slotsOf vecs v)[(k + 1) % (slotsOf vecs v).length]'(Nat.mod_lt _ (by omega)) := by
  set P := ((List.range m).map (slotsOf vecs)).flatMap cyclePairs with hP
  have hfst : P.map Prod.fst = ((List.range m).map (slotsOf vecs)).flatten := by
    rw [hP, List.map_flatMap, List.flatMap_def]
    congr 1
    conv_rhs => rw [← List.map_id ((List.range m).map (slotsOf vecs))]
    exact List.map_congr_left (fun w _ => cyclePairs_fst w)
  have hslot : ∀ s ∈ P.map Prod.fst, IsSlot vecs.length n s := by
    intro s hs
    rw [hfst, List.mem_flatten] at hs
    obtain ⟨l, hl, hs⟩ := hs
    obtain ⟨v, _, rfl⟩ := List.mem_map.1 hl
    exact (isSlot_iff rfl hn s).2 ⟨v, mem_slotsOf.1 hs⟩
  have hnd : (P.map Prod.fst).Nodup := by
    rw [hfst, List.nodup_flatten]
    constructor
    · intro l hl
      obtain ⟨v, _, rfl⟩ := List.mem_map.1 hl
      exact slotsOf_nodup vecs v
    · rw [List.pairwise_map]
      refine (List.nodup_range (n := m)).imp ?_
      intro a b hab s ha hb
      have h1 := mem_slotsOf.1 ha
      have h2 := mem_slotsOf.1 hb
      rw [h1] at h2
      injection h2 with h2
      exact hab h2
  have hnd' : (P.map (fun x => x.1.1 * n + x.1.2)).Nodup := by
    have : (fun x : (ℕ × ℕ) × (ℕ × ℕ) => x.1.1 * n + x.1.2) =
        (fun s : ℕ × ℕ => s.1 * n + s.2) ∘ Prod.fst := rfl
    rw [this, ← List.map_map]
    refine List.Nodup.map_on ?_ hnd
    intro a ha b hb h
    exact slot_inj (hslot a ha) (hslot b hb) h
  obtain ⟨h1, -, h3⟩ := foldl_set (fun s => s.1 * n + s.2) P
    (List.replicate (vecs.length * n) (0, 0)) hnd' (by
      intro x hx
      rw [List.length_replicate]
      exact slot_lt (hslot _ (List.mem_map_of_mem hx)))
  have he : permOf m n vecs =
      P.foldl (fun perm x => perm.set (x.1.1 * n + x.1.2) x.2) (List.replicate (vecs.length * n) (0, 0)) := by
    unfold permOf
    rw [foldl_writeCycle]
  refine ⟨by rw [he, h1, List.length_replicate], ?_⟩
  intro v hv k hk
  have hmem : ((slotsOf vecs v)[k], (slotsOf vecs v)[(k + 1) % (slotsOf vecs v).length]'(Nat.mod_lt _ (by omega)))
      ∈ P := by
    rw [hP, List.mem_flatMap]
    exact ⟨slotsOf vecs v, List.mem_map.2 ⟨v, List.mem_range.2 hv, rfl⟩, cyclePairs_get _ k hk⟩
  have := h3 _ hmem
  unfold nextSlot
  rw [he, List.getD_eq_getElem?_getD, this]
  rfl

theorem nextSlot_iter {m n : ℕ} {vecs : List (List ℕ)} (hn : ∀ v ∈ vecs, v.length = n) {v : ℕ} (hv : v < m) (k : ℕ)
    (hk : k < (slotsOf vecs v).length) (i : ℕ) :
    (nextSlot n (permOf m n vecs))^[i] ((slotsOf vecs v)[k]) =
      (slotsOf vecs v)[(k + i) % (slotsOf vecs v).length]'(Nat.mod_lt _ (by omega)) := by
  induction i with
  | zero => simp [Nat.mod_eq_of_lt hk]
  | succ i ih =>
    rw [Function.iterate_succ_apply', ih, (permOf_spec hn).2 v hv _ (Nat.mod_lt _ (by omega))]
    congr 1
    rw [Nat.mod_add_mod, add_assoc]

/-- two slots are on one cycle exactly when they carry the same variable -/
theorem linked_iff {m n : ℕ} {vecs : List (List ℕ)} (hn : ∀ v ∈ vecs, v.length = n)
    (hm : ∀ s v, varAt vecs s = some v → v < m) {a b : ℕ × ℕ} (ha : IsSlot vecs.length n a) :
    (∃ i : ℕ, (nextSlot n (permOf m n vecs))^[i] a = b) ↔ varAt vecs a = varAt vecs b := by
  obtain ⟨v, hav⟩ := (isSlot_iff rfl hn a).1 ha
  obtain ⟨k, hk, rfl⟩ := List.mem_iff_getElem.1 (mem_slotsOf.2 hav)
  have hv := hm _ _ hav
  constructor
  · rintro ⟨i, rfl⟩
    rw [hav, nextSlot_iter hn hv k hk i]
    exact (mem_slotsOf.1 (List.getElem_mem _)).symm
  · intro h
    rw [hav] at h
    obtain ⟨k', hk', rfl⟩ := List.mem_iff_getElem.1 (mem_slotsOf.2 h.symm)
    refine ⟨k' + ((slotsOf vecs v).length - k), ?_⟩
    rw [nextSlot_iter hn hv k hk]
    congr 1
    rw [show k + (k' + ((slotsOf vecs v).length - k)) = k' + (slotsOf vecs v).length by omega,
      Nat.add_mod_right, Nat.mod_eq_of_lt hk']

theorem nextSlot_slot {m n : ℕ} {vecs : List (List ℕ)} (hn : ∀ v ∈ vecs, v.length = n)
    (hm : ∀ s v, varAt vecs s = some v → v < m) {a : ℕ × ℕ} (ha : IsSlot vecs.length n a) :
    IsSlot vecs.length n (nextSlot n (permOf m n vecs) a) := by
  have h : varAt vecs a = varAt vecs (nextSlot n (permOf m n vecs) a) :=
    (linked_iff hn hm ha).1 ⟨1, rfl⟩
  obtain ⟨v, hav⟩ := (isSlot_iff rfl hn a).1 ha
  exact (isSlot_iff rfl hn _).2 ⟨v, by rw [← h]; exact hav⟩

theorem nextSlot_bij {m n : ℕ} {vecs : List (List ℕ)} (hn : ∀ v ∈ vecs, v.length = n)
    (hm : ∀ s v, varAt vecs s = some v → v < m) :
    Set.BijOn (nextSlot n (permOf m n vecs)) {s | IsSlot vecs.length n s}
      {s | IsSlot vecs.length n s} := by
  refine ⟨fun a ha => nextSlot_slot hn hm ha, ?_, ?_⟩
  · intro a ha b hb hab
    have h1 : varAt vecs a = varAt vecs (nextSlot n (permOf m n vecs) a) :=
      (linked_iff hn hm ha).1 ⟨1, rfl⟩
    have h2 : varAt vecs b = varAt vecs (nextSlot n (permOf m n vecs) b) :=
      (linked_iff hn hm hb).1 ⟨1, rfl⟩
    obtain ⟨v, hav⟩ := (isSlot_iff rfl hn a).1 ha
    have hbv : varAt vecs b = some v := by rw [h2, ← hab, ← h1, hav]
    have hv := hm _ _ hav
    obtain ⟨k, hk, rfl⟩ := List.mem_iff_getElem.1 (mem_slotsOf.2 hav)
    obtain ⟨k', hk', rfl⟩ := List.mem_iff_getElem.1 (mem_slotsOf.2 hbv)
    have hi := nextSlot_iter hn hv k hk (slotsOf vecs v).length
    have hi' := nextSlot_iter hn hv k' hk' (slotsOf vecs v).length
    obtain ⟨l, hl⟩ : ∃ l, (slotsOf vecs v).length = l + 1 := ⟨(slotsOf vecs v).length - 1, by omega⟩
    have e : (nextSlot n (permOf m n vecs))^[(slotsOf vecs v).length] ((slotsOf vecs v)[k]) =
        (nextSlot n (permOf m n vecs))^[(slotsOf vecs v).length] ((slotsOf vecs v)[k']) := by
      rw [hl, Function.iterate_succ_apply, Function.iterate_succ_apply, hab]
    rw [hi, hi'] at e
    simpa [Nat.mod_eq_of_lt hk, Nat.mod_eq_of_lt hk'] using e
  · intro b hb
    obtain ⟨v, hbv⟩ := (isSlot_iff rfl hn b).1 hb
    have hv := hm _ _ hbv
    obtain ⟨k, hk, rfl⟩ := List.mem_iff_getElem.1 (mem_slotsOf.2 hbv)
    obtain ⟨l, hl⟩ : ∃ l, (slotsOf vecs v).length = l + 1 := ⟨(slotsOf vecs v).length - 1, by omega⟩
    have hlt : (k + l) % (slotsOf vecs v).length < (slotsOf vecs v).length := Nat.mod_lt _ (by omega)
    refine ⟨(slotsOf vecs v)[(k + l) % (slotsOf vecs v).length], ?_, ?_⟩
    · exact (isSlot_iff rfl hn _).2 ⟨v, mem_slotsOf.1 (List.getElem_mem _)⟩
    · rw [(permOf_spec hn).2 v hv _ hlt]
      congr 1
      rw [Nat.mod_add_mod, show k + l + 1 = k + (slotsOf vecs v).length by omega, Nat.add_mod_right,
        Nat.mod_eq_of_lt hk]

end Verif.Plonk
