import Verif.Merkle.ExtendWF
import Verif.Props.MerkleProofs

/-!
# C09, C10, C11 (and C04 for append-only and light-weight trees)
-/

namespace Verif.Props.Merkle

open Verif.Merkle

variable {a : ℕ} {E T : Type}

/-! ## Specification -/

/-- What a tree of the given capacity holds after appending `D` to `L`: as much as fits. -/
def appendSpec (cap : ℕ) (L D : List E) : List E := L ++ D.take (cap - L.length)

/-- Run a sequence of `extend` calls, going on after errors; collect which calls succeeded. -/
def runExtend [NeZero a] (H : Hasher E ℕ T) : Tree a E ℕ T → List (List E) → Tree a E ℕ T × List Bool
  | t, [] => (t, [])
  | t, D :: Ds =>
    let (t', r) := t.extend H D
    let (t'', rs) := runExtend H t' Ds
    (t'', r.isOk :: rs)

/-- The same for the light-weight tree. -/
def runLightExtend [NeZero a] (H : Hasher E ℕ T) :
    Tree a E ℕ T → List (List E) → Tree a E ℕ T × List Bool
  | t, [] => (t, [])
  | t, D :: Ds =>
    let (t', r) := t.lightExtend H D
    let (t'', rs) := runLightExtend H t' Ds
    (t'', r.isOk :: rs)

/-- Contents and success flags according to the specification. -/
def specExtend (cap : ℕ) : List E → List (List E) → List E × List Bool
  | L, [] => (L, [])
  | L, D :: Ds =>
    let (L', rs) := specExtend cap (appendSpec cap L D) Ds
    (L', decide (L.length + D.length ≤ cap) :: rs)

/-- The tree holding list `L`. -/
def listTree (H : Hasher E ℕ T) (h : ℕ) (L : List E) : Tree a E ℕ T := ⟨seqTree H L h 0, h, L.length⟩

theorem specExtend_fits (cap : ℕ) : ∀ (Ds : List (List E)) (L : List E),
    (L ++ Ds.flatten).length ≤ cap →
    specExtend cap L Ds = (L ++ Ds.flatten, Ds.map fun _ => true) := by
  intro Ds
  induction Ds with
  | nil => intro L _; simp [specExtend]
  | cons D Ds ih =>
    intro L hL
    simp only [List.flatten_cons, List.length_append] at hL
    have h1 : appendSpec cap L D = L ++ D := by
      unfold appendSpec
      rw [List.take_of_length_le (by omega)]
    simp only [specExtend, h1]
    rw [ih (L ++ D) (by simp only [List.length_append]; omega)]
    simp only [List.flatten_cons, List.append_assoc, List.map_cons, Prod.mk.injEq, List.cons.injEq,
      and_true, true_and, decide_eq_true_eq]
    omega

theorem specExtend_length (cap : ℕ) : ∀ (Ds : List (List E)) (L : List E), L.length ≤ cap →
    (specExtend cap L Ds).1.length ≤ cap := by
  intro Ds
  induction Ds with
  | nil => intro L h; exact h
  | cons D Ds ih =>
    intro L h
    simp only [specExtend]
    apply ih
    simp only [appendSpec, List.length_append, List.length_take]
    omega

theorem fromElems_listTree [NeZero a] (H : Hasher E ℕ T) (h : ℕ) (L : List E) (hL : L.length ≤ a ^ h) :
    Tree.fromElems a H (some h) L = .ok (listTree H h L) := by
  unfold Tree.fromElems
  rw [buildTree_spec H (some h) h L rfl, if_pos hL]
  rfl

theorem toPath_zero [NeZero a] (h k : ℕ) (hk : k < h) : (toPath a 0 h)[k]? = some 0 := by
  rw [toPath_getElem? 0 h k hk]
  simp [Fin.ofNat]

theorem front_root [NeZero a] (h n : ℕ) (hn : n < a ^ h) : Front true (toPath a n h) h 0 n := by
  refine ⟨dvd_zero _, ?_⟩
  simp only [if_true]
  exact ⟨by omega, by omega, fun k hk => toPath_getElem? n h k hk⟩

theorem extend_listTree [NeZero a] (H : Hasher E ℕ T) (h : ℕ) (L D : List E) (hL : L.length ≤ a ^ h) :
    ∃ r, (listTree H h L : Tree a E ℕ T).extend H D = (listTree H h (appendSpec (a ^ h) L D), r) ∧
      r.isOk = decide (L.length + D.length ≤ a ^ h) := by
  unfold Tree.extend
  simp only [listTree]
  by_cases hD : D = []
  · subst hD
    have : extendInternal H h (seqTree H L h 0) L.length (toPath a L.length h) true [] =
        .ok (seqTree H L h 0, 0, []) := by unfold extendInternal; simp
    rw [this]
    exact ⟨_, by simp [appendSpec]; rfl, by simp [Except.isOk, Except.toBool]; exact hL⟩
  · rcases Nat.lt_or_ge L.length (a ^ h) with hlt | hge
    · rw [extend_seq H _ h 0 L D true (front_root h _ hlt)]
      refine ⟨if (D.drop (0 + a ^ h - L.length)).isEmpty then .ok () else .error .exceedCapacity, ?_, ?_⟩
      · simp only [Nat.zero_add, appendSpec, List.length_append, List.length_take]
        rw [Nat.min_comm]
      · simp only [Nat.zero_add]
        by_cases hfit : L.length + D.length ≤ a ^ h
        · rw [List.drop_of_length_le (by omega)]
          simp [Except.isOk, Except.toBool, hfit]
        · have : (D.drop (a ^ h - L.length)).isEmpty = false := by
            rw [List.isEmpty_eq_false_iff]
            intro hx
            rw [List.drop_eq_nil_iff] at hx
            omega
          simp [Except.isOk, Except.toBool, this, hfit]
    · have hpath : toPath a L.length h = toPath a 0 h := by
        have : L.length = 0 + a ^ h := by omega
        rw [this, toPath_add_capacity]
      rw [hpath, extend_full H _ h 0 _ L D true (by omega) (fun _ k hk => toPath_zero h k hk) hD]
      refine ⟨.error .existingLeaf, ?_, ?_⟩
      · have : a ^ h - L.length = 0 := by omega
        simp [appendSpec, this]
      · have : 0 < D.length := List.length_pos_iff.mpr hD
        simp [Except.isOk, Except.toBool]
        omega

theorem runExtend_listTree [NeZero a] (H : Hasher E ℕ T) (h : ℕ) : ∀ (Ds : List (List E)) (L : List E),
    L.length ≤ a ^ h →
    runExtend H (listTree H h L : Tree a E ℕ T) Ds =
      (listTree H h (specExtend (a ^ h) L Ds).1, (specExtend (a ^ h) L Ds).2) := by
  intro Ds
  induction Ds with
  | nil => intro L _; rfl
  | cons D Ds ih =>
    intro L hL
    obtain ⟨r, h1, h2⟩ := extend_listTree (a := a) H h L D hL
    simp only [runExtend, h1, specExtend, h2]
    rw [ih]
    simp only [appendSpec, List.length_append, List.length_take]
    omega

theorem listTree_lookup [NeZero a] (H : Hasher E ℕ T) (h : ℕ) (L : List E) (i : ℕ) (hi : i < a ^ h) :
    match L[i]? with
    | some e => ∃ p, (listTree H h L : Tree a E ℕ T).universalLookup H id i = .ok (.ok e p)
    | none => ∃ p, (listTree H h L : Tree a E ℕ T).universalLookup H id i = .ok (.notFound p) :=
  seqTree_lookup H L h [] _ 0 i (Base.root h) (by omega) (by simpa using hi)
    (fun k hk => toPath_getElem? i h k hk)

theorem listTree_wf [NeZero a] (H : Hasher E ℕ T) (h : ℕ) (L : List E) :
    (listTree H h L : Tree a E ℕ T).WellFormed H id :=
  seqTree_wf H L h [] 0 (Base.root h)

/-! ## C09 -/

/-- **C09.** Build from `L₀`, then extend by the lists `Ds` (one call each), everything within
capacity: every call succeeds, the leaf count is the total length, index `i` holds the `i`-th element
of the concatenation with a proof that verifies, later indices are absent, and the resulting tree
(hence the commitment) is the one built at once from the concatenation. -/
theorem C09_append_order [DecidableEq T] [NeZero a] (H : Hasher E ℕ T) (ha : 2 ≤ a) (h : ℕ)
    (L₀ : List E) (Ds : List (List E)) (hcap : (L₀ ++ Ds.flatten).length ≤ a ^ h) :
    ∃ t₀ t : Tree a E ℕ T, Tree.fromElems a H (some h) L₀ = .ok t₀ ∧
      runExtend H t₀ Ds = (t, Ds.map fun _ => true) ∧
      Tree.fromElems a H (some h) (L₀ ++ Ds.flatten) = .ok t ∧
      t.height = h ∧ t.numLeaves = (L₀ ++ Ds.flatten).length ∧
      (∀ i e, (L₀ ++ Ds.flatten)[i]? = some e → ∃ p, t.universalLookup H id i = .ok (.ok e p) ∧
        Tree.verify a H id (t.commitment H) i e p = .ok true) ∧
      (∀ i, (L₀ ++ Ds.flatten).length ≤ i → i < a ^ h →
        ∃ p, t.universalLookup H id i = .ok (.notFound p)) := by
  have hL0 : L₀.length ≤ a ^ h := by simp only [List.length_append] at hcap; omega
  refine ⟨_, listTree H h (L₀ ++ Ds.flatten), fromElems_listTree H h L₀ hL0, ?_,
    fromElems_listTree H h _ hcap, rfl, rfl, ?_, ?_⟩
  · rw [runExtend_listTree H h Ds L₀ hL0, specExtend_fits _ _ _ hcap]
  · intro i e hie
    have hi : i < (L₀ ++ Ds.flatten).length := by
      by_contra hn
      rw [List.getElem?_eq_none (by omega)] at hie
      simp at hie
    have hl := listTree_lookup (a := a) H h (L₀ ++ Ds.flatten) i (by omega)
    rw [hie] at hl
    obtain ⟨p, hp⟩ := hl
    exact ⟨p, hp, lookup_ok_verifies H id Function.injective_id ha _ (listTree_wf H h _) i
      (by show i < a ^ h; omega) e p hp⟩
  · intro i hi hih
    have hl := listTree_lookup (a := a) H h (L₀ ++ Ds.flatten) i hih
    rw [List.getElem?_eq_none hi] at hl
    exact hl

/-- **C09, pushes.** Pushing elements one by one is the same as building from the whole list. -/
theorem C09_push_each [DecidableEq T] [NeZero a] (H : Hasher E ℕ T) (ha : 2 ≤ a) (h : ℕ) (L : List E)
    (hcap : L.length ≤ a ^ h) :
    ∃ t : Tree a E ℕ T, Tree.fromElems a H (some h) L = .ok t ∧
      runExtend H (Tree.new h) (L.map fun e => [e]) = (t, L.map fun _ => true) := by
  have hfl : (L.map fun e => [e]).flatten = L := by
    induction L with
    | nil => rfl
    | cons x L ih => simp only [List.map_cons, List.flatten_cons, List.singleton_append]; rw [ih (by simp at hcap; omega)]
  obtain ⟨t₀, t, h1, h2, h3, -⟩ := C09_append_order H ha h [] (L.map fun e => [e])
    (by rw [List.nil_append, hfl]; exact hcap)
  rw [List.nil_append, hfl] at h3
  refine ⟨t, h3, ?_⟩
  rw [fromElems_listTree H h [] (by simp)] at h1
  simp only [Except.ok.injEq] at h1
  have : (Tree.new h : Tree a E ℕ T) = t₀ := by
    rw [← h1]; simp [Tree.new, listTree, seqTree_empty]
  rw [this, h2, List.map_map]
  rfl

/-- **C09, default height.** Without an explicit height the tree gets the smallest sufficient one. -/
theorem C09_default_height [NeZero a] (H : Hasher E ℕ T) (ha : 2 ≤ a) (L : List E) :
    ∃ (h : ℕ) (t : Tree a E ℕ T), Tree.fromElems a H none L = .ok t ∧
      Tree.fromElems a H (some h) L = .ok t ∧ t.height = h ∧ L.length ≤ a ^ h ∧
      (∀ h' < h, a ^ h' < L.length) := by
  obtain ⟨h, h1, h2, h3⟩ := chooseHeight_none (a := a) ha L.length
  refine ⟨h, listTree H h L, ?_, fromElems_listTree H h L h2, rfl, h2, ?_⟩
  · unfold Tree.fromElems
    rw [buildTree_spec H none h L h1, if_pos h2]
    rfl
  · intro h' hh
    rcases h3 with h3 | h3
    · omega
    · exact lt_of_le_of_lt (Nat.pow_le_pow_right (by omega) (by omega)) h3

/-- Non-vacuity: arity 3, height 2, five elements in three calls. -/
example : ([4, 5] ++ [[6], [], [7, 8]].flatten : List ℕ).length ≤ 3 ^ 2 := by decide

/-! ## C10 -/

/-- **C10, construction.** Building succeeds exactly when the elements fit. -/
theorem C10_from_elems_capacity [NeZero a] (H : Hasher E ℕ T) (h : ℕ) (L : List E) :
    (L.length ≤ a ^ h → ∃ t : Tree a E ℕ T, Tree.fromElems a H (some h) L = .ok t ∧
      t.numLeaves = L.length ∧ t.height = h) ∧
    (a ^ h < L.length → Tree.fromElems a H (some h) L = .error .exceedCapacity) := by
  constructor
  · intro hL
    exact ⟨_, fromElems_listTree H h L hL, rfl, rfl⟩
  · intro hL
    unfold Tree.fromElems
    rw [buildTree_spec H (some h) h L rfl, if_neg (by omega)]
    rfl

/-- **C10, extension.** Any sequence of extend calls, some of which may overflow: exactly the calls
that do not fit report an error, the tree then holds exactly the elements that fit (never more than
the capacity), and all of them remain provable. -/
theorem C10_extend_capacity [DecidableEq T] [NeZero a] (H : Hasher E ℕ T) (ha : 2 ≤ a) (h : ℕ)
    (L₀ : List E) (hL0 : L₀.length ≤ a ^ h) (Ds : List (List E)) :
    ∃ t₀ t : Tree a E ℕ T, Tree.fromElems a H (some h) L₀ = .ok t₀ ∧
      runExtend H t₀ Ds = (t, (specExtend (a ^ h) L₀ Ds).2) ∧
      Tree.fromElems a H (some h) (specExtend (a ^ h) L₀ Ds).1 = .ok t ∧
      t.numLeaves = (specExtend (a ^ h) L₀ Ds).1.length ∧ t.numLeaves ≤ a ^ h ∧
      (∀ i e, (specExtend (a ^ h) L₀ Ds).1[i]? = some e →
        ∃ p, t.universalLookup H id i = .ok (.ok e p) ∧
          Tree.verify a H id (t.commitment H) i e p = .ok true) := by
  have hlen := specExtend_length (a ^ h) Ds L₀ hL0
  refine ⟨_, listTree H h (specExtend (a ^ h) L₀ Ds).1, fromElems_listTree H h L₀ hL0,
    runExtend_listTree H h Ds L₀ hL0, fromElems_listTree H h _ hlen, rfl, hlen, ?_⟩
  intro i e hie
  have hi : i < (specExtend (a ^ h) L₀ Ds).1.length := by
    by_contra hn
    rw [List.getElem?_eq_none (by omega)] at hie
    simp at hie
  have hl := listTree_lookup (a := a) H h (specExtend (a ^ h) L₀ Ds).1 i (by omega)
  rw [hie] at hl
  obtain ⟨p, hp⟩ := hl
  exact ⟨p, hp, lookup_ok_verifies H id Function.injective_id ha _ (listTree_wf H h _) i
    (by show i < a ^ h; omega) e p hp⟩

/-- Non-vacuity: a tree of capacity 4 filled beyond its capacity in several calls. -/
example : specExtend (2 ^ 2) [1] [[2, 3], [4, 5, 6], [7], []] = ([1, 2, 3, 4], [true, false, false, true]) := by
  decide

/-! ## C11 -/

/-- Light-weight state for list `L`. -/
def IsLight (H : Hasher E ℕ T) (h : ℕ) (L : List E) (t : Tree a E ℕ T) : Prop :=
  LW H L h 0 t.root ∧ t.height = h ∧ t.numLeaves = L.length

theorem lightExtend_spec [NeZero a] (H : Hasher E ℕ T) (h : ℕ) (L D : List E) (hL : L.length ≤ a ^ h)
    (t : Tree a E ℕ T) (ht : IsLight H h L t) :
    ∃ t' r, t.lightExtend H D = (t', r) ∧ IsLight H h (appendSpec (a ^ h) L D) t' ∧
      r.isOk = decide (L.length + D.length ≤ a ^ h) := by
  obtain ⟨hlw, rfl, hn⟩ := ht
  unfold Tree.lightExtend
  rw [hn]
  by_cases hD : D = []
  · subst hD
    have : extendAndForgetInternal H t.height t.root L.length (toPath a L.length t.height) true [] =
        .ok (t.root, 0, []) := by unfold extendAndForgetInternal; simp
    rw [this]
    refine ⟨_, _, rfl, ?_, by simp [Except.isOk, Except.toBool]; exact hL⟩
    simp only [appendSpec, List.take_nil, List.append_nil]
    exact ⟨hlw, rfl, rfl⟩
  · rcases Nat.lt_or_ge L.length (a ^ t.height) with hlt | hge
    · obtain ⟨nd, h1, h2⟩ := extendLight_spec H _ t.height 0 L D true t.root (front_root t.height _ hlt) hlw
      rw [h1]
      refine ⟨_, _, rfl, ⟨?_, rfl, ?_⟩, ?_⟩
      · simpa [appendSpec] using h2
      · simp only [Nat.zero_add, appendSpec, List.length_append, List.length_take]
        rw [Nat.min_comm]
      · simp only [Nat.zero_add]
        by_cases hfit : L.length + D.length ≤ a ^ t.height
        · rw [List.drop_of_length_le (by omega)]
          simp [Except.isOk, Except.toBool, hfit]
        · have : (D.drop (a ^ t.height - L.length)).isEmpty = false := by
            rw [List.isEmpty_eq_false_iff]
            intro hx
            rw [List.drop_eq_nil_iff] at hx
            omega
          simp [Except.isOk, Except.toBool, this, hfit]
    · have hpath : toPath a L.length t.height = toPath a 0 t.height := by
        have : L.length = 0 + a ^ t.height := by omega
        rw [this, toPath_add_capacity]
      obtain ⟨e, he⟩ := extendLight_full H (toPath a 0 t.height) t.height 0 L.length L D true t.root
        (by omega) (fun _ k hk => toPath_zero t.height k hk) hD hlw.pruned
      rw [hpath, he]
      refine ⟨t, _, rfl, ?_, ?_⟩
      · have : a ^ t.height - L.length = 0 := by omega
        simp only [appendSpec, this, List.take_zero, List.append_nil]
        exact ⟨hlw, rfl, hn⟩
      · have : 0 < D.length := List.length_pos_iff.mpr hD
        simp [Except.isOk, Except.toBool]
        omega

theorem runLightExtend_spec [NeZero a] (H : Hasher E ℕ T) (h : ℕ) :
    ∀ (Ds : List (List E)) (L : List E) (t : Tree a E ℕ T), L.length ≤ a ^ h → IsLight H h L t →
    ∃ t', runLightExtend H t Ds = (t', (specExtend (a ^ h) L Ds).2) ∧
      IsLight H h (specExtend (a ^ h) L Ds).1 t' := by
  intro Ds
  induction Ds with
  | nil => intro L t _ ht; exact ⟨t, rfl, ht⟩
  | cons D Ds ih =>
    intro L t hL ht
    obtain ⟨t1, r, h1, h2, h3⟩ := lightExtend_spec H h L D hL t ht
    obtain ⟨t2, h4, h5⟩ := ih (appendSpec (a ^ h) L D) t1
      (by simp only [appendSpec, List.length_append, List.length_take]; omega) h2
    exact ⟨t2, by simp only [runLightExtend, h1, h4, specExtend, h3], h5⟩

/-- **C11.** The light-weight tree given the same elements in the same calls (including calls that
overflow) has the same commitment, leaf count and success flags as the full append-only tree; the
most recent leaf can be looked up and its proof verifies; and any other lookup is either
"not in memory" or the answer of the full tree. -/
theorem C11_light_weight_matches_full [DecidableEq T] [NeZero a] (H : Hasher E ℕ T) (ha : 2 ≤ a)
    (h : ℕ) (hcap : a ^ h < 2 ^ 64) (L₀ : List E) (hL0 : L₀.length ≤ a ^ h) (Ds : List (List E)) :
    ∃ f₀ f l₀ l : Tree a E ℕ T, ∃ flags : List Bool,
      Tree.fromElems a H (some h) L₀ = .ok f₀ ∧ runExtend H f₀ Ds = (f, flags) ∧
      Tree.lightFromElems a H (some h) L₀ = .ok l₀ ∧ runLightExtend H l₀ Ds = (l, flags) ∧
      l.commitment H = f.commitment H ∧ l.numLeaves = f.numLeaves ∧ l.height = f.height ∧
      (∀ e, (specExtend (a ^ h) L₀ Ds).1.getLast? = some e →
        ∃ p, l.universalLookup H id (l.numLeaves - 1) = .ok (.ok e p) ∧
          Tree.verify a H id (l.commitment H) (l.numLeaves - 1) e p = .ok true) ∧
      (∀ i < a ^ h, l.universalLookup H id i = .ok .notInMemory ∨
        l.universalLookup H id i = f.universalLookup H id i) := by
  have hlen := specExtend_length (a ^ h) Ds L₀ hL0
  obtain ⟨n0, hn0, hlw0⟩ := buildLight_spec (a := a) H (some h) h L₀ rfl hcap hL0
  have hl0 : IsLight H h L₀ (⟨n0, h, L₀.length⟩ : Tree a E ℕ T) := ⟨hlw0, rfl, rfl⟩
  obtain ⟨l, h1, hlw, hlh, hln⟩ := runLightExtend_spec H h Ds L₀ _ hL0 hl0
  set L := (specExtend (a ^ h) L₀ Ds).1 with hLdef
  have hcom : l.commitment H = (listTree H h L : Tree a E ℕ T).commitment H := hlw.pruned.value_eq
  refine ⟨_, listTree H h L, ⟨n0, h, L₀.length⟩, l, (specExtend (a ^ h) L₀ Ds).2,
    fromElems_listTree H h L₀ hL0, runExtend_listTree H h Ds L₀ hL0, ?_, h1, hcom, hln, hlh, ?_, ?_⟩
  · unfold Tree.lightFromElems
    rw [hn0]; rfl
  · intro e he
    have hne : L ≠ [] := by rintro hx; rw [hx] at he; simp at he
    have hpos : 0 < L.length := List.length_pos_iff.mpr hne
    have hlast : L[L.length - 1]? = some e := by rw [← List.getLast?_eq_getElem?]; exact he
    have hlk := listTree_lookup (a := a) H h L (L.length - 1) (by omega)
    rw [hlast] at hlk
    obtain ⟨p, hp⟩ := hlk
    have heq := LW.lookup_last H L (toPath a (L.length - 1) h) h 0 (L.length - 1) l.root (by omega)
      (dvd_zero _) (by omega) (by omega) (fun k hk => toPath_getElem? _ h k hk) hlw
    refine ⟨p, ?_, ?_⟩
    · rw [hln]
      unfold Tree.universalLookup
      rw [hlh]
      exact heq.trans hp
    · rw [hcom, hln]
      exact lookup_ok_verifies H id Function.injective_id ha _ (listTree_wf H h L) _
        (by show L.length - 1 < a ^ h; omega) e p hp
  · intro i hi
    have hlk : ∃ x, (listTree H h L : Tree a E ℕ T).universalLookup H id i = .ok x := by
      have := listTree_lookup (a := a) H h L i hi
      split at this
      · obtain ⟨p, hp⟩ := this; exact ⟨_, hp⟩
      · obtain ⟨p, hp⟩ := this; exact ⟨_, hp⟩
    obtain ⟨x, hx⟩ := hlk
    rw [hx]
    have := Pruned.lookup H (toPath a i h) h l.root _ hlw.pruned x hx
    unfold Tree.universalLookup
    rw [hlh]
    exact this.symm

/-- Non-vacuity: binary light-weight tree of height 3 filled in three calls, the last overflowing. -/
example : (2 : ℕ) ^ 3 < 2 ^ 64 ∧ ([1, 2, 3] : List ℕ).length ≤ 2 ^ 3 ∧
    specExtend (2 ^ 3) [1, 2, 3] [[4], [5, 6], [7, 8, 9]] =
      ([1, 2, 3, 4, 5, 6, 7, 8], [true, true, false]) := by decide

/-! ## C04 for append-only and light-weight trees with forgetting -/

/-- Trees obtained by any history of construction, extension, forgetting and remembering
(append-only and light-weight).  Extension is listed for trees that are not full; full trees
reject it without change (C10). -/
inductive AppendReachable [DecidableEq T] [NeZero a] (H : Hasher E ℕ T) : Tree a E ℕ T → Prop
  | new (h : ℕ) : AppendReachable H (Tree.new h)
  | fromCommitment (c : T) (h n : ℕ) : AppendReachable H (Tree.fromCommitment c h n)
  | fromElems (h : ℕ) (L : List E) (t : Tree a E ℕ T) :
      Tree.fromElems a H (some h) L = .ok t → AppendReachable H t
  | extend (t : Tree a E ℕ T) (D : List E) : AppendReachable H t → t.numLeaves < a ^ t.height →
      AppendReachable H (t.extend H D).1
  | lightExtend (t : Tree a E ℕ T) (D : List E) : AppendReachable H t → t.numLeaves < a ^ t.height →
      AppendReachable H (t.lightExtend H D).1
  | forget (t t' : Tree a E ℕ T) (pos : ℕ) (o : LookupResult E (List (List T)) (List (List T))) :
      AppendReachable H t → t.universalForget H id pos = .ok (t', o) → AppendReachable H t'
  | remember (t t' : Tree a E ℕ T) (pos : ℕ) (e : E) (proof : List (List T)) :
      AppendReachable H t → IdealHash a H → pos < a ^ t.height → proof.length = t.height →
      t.remember H id pos e proof = .ok t' → AppendReachable H t'

theorem append_reachable_wf [DecidableEq T] [NeZero a] (H : Hasher E ℕ T) (ha : 2 ≤ a)
    (t : Tree a E ℕ T) (hr : AppendReachable H t) : t.WellFormed H id := by
  induction hr with
  | new h => unfold Tree.WellFormed Tree.new; cases h <;> trivial
  | fromCommitment c h n => unfold Tree.WellFormed Tree.fromCommitment; cases h <;> trivial
  | fromElems h L t ht =>
    by_cases hL : L.length ≤ a ^ h
    · rw [fromElems_listTree H h L hL] at ht
      simp only [Except.ok.injEq] at ht
      rw [← ht]; exact listTree_wf H h L
    · rw [(C10_from_elems_capacity H h L).2 (by omega)] at ht
      simp at ht
  | extend t D _ hn ih =>
    unfold Tree.extend
    split
    · exact ih
    · rename_i heq
      exact (extend_wf H _ t.height [] 0 _ _ _ _ _ _ _ ih (Base.root _) (front_root _ _ hn) heq).1
  | lightExtend t D _ hn ih =>
    unfold Tree.lightExtend
    split
    · exact ih
    · rename_i heq
      exact (extendLight_wf H _ t.height [] 0 _ _ _ _ _ _ _ ih (Base.root _) (front_root _ _ hn) heq).1
  | forget t t' pos o _ hf ih =>
    unfold Tree.universalForget at hf
    obtain ⟨n', r, h1, h2, -⟩ := forget_spec H id t.height [] _ t.root ih (Through.root (id pos) _)
    rw [h1] at hf
    simp only [Except.ok.injEq, Prod.mk.injEq] at hf
    rw [← hf.1]
    exact h2
  | remember t t' pos e proof _ hid hpos hlen hrem ih =>
    have hver := C13_remember_only_valid H id t t' pos e proof hrem
    have hw := ((verify_true_iff H id _ pos e proof).mp hver).1
    rcases remember_cases H id Function.injective_id ha t ih pos hpos e proof hlen hver with
      ⟨t'', h1, h2, -⟩ | h
    · rw [hrem] at h1
      simp only [Except.ok.injEq] at h1
      rw [h1]; exact h2
    · exact absurd h (not_broken H id hid ha t pos e proof hlen hw)

/-- **C04** for append-only and light-weight trees. -/
theorem C04_append_only_proofs_verify [DecidableEq T] [NeZero a] (H : Hasher E ℕ T) (ha : 2 ≤ a)
    (t : Tree a E ℕ T) (hr : AppendReachable H t) (pos : ℕ) (hpos : pos < a ^ t.height) (e : E)
    (proof : List (List T)) (hl : t.universalLookup H id pos = .ok (.ok e proof)) :
    Tree.verify a H id (t.commitment H) pos e proof = .ok true :=
  lookup_ok_verifies H id Function.injective_id ha t (append_reachable_wf H ha t hr) pos hpos e proof hl

/-- Non-vacuity: build, forget one leaf, extend, look up another. -/
example : ∃ t t' o e p, Tree.fromElems 2 demoHasher (some 2) [5, 6] = .ok t ∧
    t.universalForget demoHasher id 0 = .ok (t', o) ∧
    (t'.extend demoHasher [7]).1.universalLookup demoHasher id 2 = .ok (.ok e p) :=
  ⟨_, _, _, _, _, rfl, rfl, rfl⟩

end Verif.Props.Merkle
