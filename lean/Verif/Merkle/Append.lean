import Verif.Merkle.Preserve
import Mathlib.Tactic.Ring
import Mathlib.Tactic.NormNum

/-! # Append-only trees: building, extending -/

namespace Verif.Merkle

variable {a : ℕ} {E I T : Type}

/-! ## Loops over `start..ARITY` -/

theorem filter_finRange_eq_drop (s : ℕ) :
    ((List.finRange a).filter fun i => s ≤ i.val) = (List.finRange a).drop s := by
  conv_lhs => rw [← List.take_append_drop s (List.finRange a)]
  rw [List.filter_append]
  have h1 : ((List.finRange a).take s).filter (fun i => decide (s ≤ i.val)) = [] := by
    rw [List.filter_eq_nil_iff]
    intro x hx
    obtain ⟨k, hk, rfl⟩ := List.mem_take_iff_getElem.mp hx
    simp at hk ⊢
    omega
  have h2 : ((List.finRange a).drop s).filter (fun i => decide (s ≤ i.val)) =
      (List.finRange a).drop s := by
    rw [List.filter_eq_self]
    intro x hx
    obtain ⟨k, hk, rfl⟩ := List.mem_drop_iff_getElem.mp hx
    simp
  rw [h1, h2, List.nil_append]

/-- Invariant rule for a loop `for i in s..ARITY`. -/
theorem foldl_from {σ : Type} (s : ℕ) (hs : s ≤ a) (f : σ → Fin a → σ) (P : ℕ → σ → Prop) (init : σ)
    (h0 : P s init) (hstep : ∀ i : Fin a, s ≤ i.val → ∀ st, P i.val st → P (i.val + 1) (f st i)) :
    P a (((List.finRange a).filter fun i => s ≤ i.val).foldl f init) := by
  rw [filter_finRange_eq_drop]
  obtain ⟨d, hd⟩ : ∃ d, a = s + d := ⟨a - s, by omega⟩
  induction d generalizing s init with
  | zero =>
    rw [List.drop_of_length_le (by simp; omega)]
    have : s = a := by omega
    simp only [List.foldl_nil]
    rw [← this]; exact h0
  | succ d ih =>
    have hlt : s < (List.finRange a).length := by simp; omega
    rw [List.drop_eq_getElem_cons hlt, List.foldl_cons]
    apply ih (s + 1) (by omega)
    · have := hstep ⟨s, by omega⟩ (le_refl _) init h0
      simpa using this
    · intro i hi
      exact hstep i (by omega)
    · omega

/-! ## The tree of a list -/

/-- The node of height `h` covering indices `b .. b + a^h` of the list. -/
def seqTree (H : Hasher E ℕ T) (L : List E) : ℕ → ℕ → Node a E ℕ T
  | 0, b => match L[b]? with
    | none => .empty
    | some e => mkLeaf H b e
  | h + 1, b => if L.length ≤ b then .empty
    else mkBranch H fun i : Fin a => seqTree H L h (b + i.val * a ^ h)

theorem seqTree_empty (H : Hasher E ℕ T) (L : List E) (h b : ℕ) (hb : L.length ≤ b) :
    (seqTree H L h b : Node a E ℕ T) = .empty := by
  cases h with
  | zero => simp [seqTree, List.getElem?_eq_none hb]
  | succ h => simp [seqTree, hb]

theorem pow_pos' [NeZero a] (h : ℕ) : 0 < a ^ h :=
  Nat.pow_pos (Nat.pos_of_ne_zero (NeZero.ne a))

/-- The node only depends on the entries it covers. -/
theorem seqTree_congr [NeZero a] (H : Hasher E ℕ T) (L L' : List E) (h : ℕ) : ∀ b,
    (∀ x, b ≤ x → x < b + a ^ h → L[x]? = L'[x]?) →
      (seqTree H L h b : Node a E ℕ T) = seqTree H L' h b := by
  induction h with
  | zero => intro b hx; simp only [seqTree]; rw [hx b (le_refl _) (by simp)]
  | succ h ih =>
    intro b hx
    have hA := pow_pos' (a := a) h
    have hc : (L.length ≤ b) = (L'.length ≤ b) := by
      have := hx b (le_refl _) (by have := pow_pos' (a := a) (h + 1); omega)
      rw [← List.getElem?_eq_none_iff, ← List.getElem?_eq_none_iff, this]
    have : (fun i : Fin a => (seqTree H L h (b + i.val * a ^ h) : Node a E ℕ T)) =
        fun i : Fin a => seqTree H L' h (b + i.val * a ^ h) := by
      funext i
      apply ih
      intro x h1 h2
      apply hx x (by omega)
      have : (i.val + 1) * a ^ h ≤ a * a ^ h := Nat.mul_le_mul_right _ i.isLt
      rw [Nat.add_mul, Nat.one_mul] at this
      rw [pow_succ, Nat.mul_comm (a ^ h) a]
      omega
    simp only [seqTree, this, hc]

theorem seqTree_branch (H : Hasher E ℕ T) (L : List E) (h b : ℕ) (hb : b < L.length) :
    (seqTree H L (h + 1) b : Node a E ℕ T) =
      mkBranch H fun i : Fin a => seqTree H L h (b + i.val * a ^ h) := by
  simp only [seqTree]
  rw [if_neg (by omega)]

theorem seqTree_leaf (H : Hasher E ℕ T) (L : List E) (b : ℕ) (e : E) (hb : L[b]? = some e) :
    (seqTree H L 0 b : Node a E ℕ T) = mkLeaf H b e := by
  simp only [seqTree, hb]

/-! ## Index arithmetic -/

/-- `pre` are the digits of the node starting at `b` with height `h`. -/
def Base [NeZero a] (h : ℕ) (pre : List (Fin a)) (b : ℕ) : Prop :=
  a ^ h ∣ b ∧ b / a ^ h < a ^ pre.length ∧ toPath a (b / a ^ h) pre.length = pre

theorem Base.root [NeZero a] (h : ℕ) : Base h ([] : List (Fin a)) 0 := by
  simp [Base, toPath]

theorem Base.child [NeZero a] {h : ℕ} {pre : List (Fin a)} {b : ℕ} (hb : Base (h + 1) pre b)
    (i : Fin a) : Base h (i :: pre) (b + i.val * a ^ h) := by
  obtain ⟨⟨q, hq⟩, h2, h3⟩ := hb
  have hA := pow_pos' (a := a) h
  have hA' := pow_pos' (a := a) (h + 1)
  have ha : 0 < a := Nat.pos_of_ne_zero (NeZero.ne a)
  have hbq : b / a ^ (h + 1) = q := by rw [hq]; exact Nat.mul_div_cancel_left q hA'
  have hdiv : (b + i.val * a ^ h) / a ^ h = q * a + i.val := by
    rw [hq, pow_succ]
    rw [show a ^ h * a * q + i.val * a ^ h = a ^ h * (q * a + i.val) by ring]
    exact Nat.mul_div_cancel_left _ hA
  rw [hbq] at h2 h3
  refine ⟨⟨q * a + i.val, by rw [hq, pow_succ]; ring⟩, ?_, ?_⟩
  · rw [hdiv, List.length_cons, pow_succ]
    have : (q + 1) * a ≤ a ^ pre.length * a := Nat.mul_le_mul_right _ h2
    have := i.isLt
    rw [Nat.add_mul] at *
    omega
  · rw [hdiv, List.length_cons, toPath]
    have h4 : (q * a + i.val) / a = q := by
      rw [Nat.mul_comm, Nat.mul_add_div ha, Nat.div_eq_of_lt i.isLt, Nat.add_zero]
    rw [h4, h3]
    congr 1
    apply Fin.ext
    simp [Fin.ofNat, Nat.mod_eq_of_lt i.isLt]

theorem Base.zero [NeZero a] {pre : List (Fin a)} {b : ℕ} (hb : Base 0 pre b) :
    b < a ^ pre.length ∧ toPath a b pre.length = pre := by
  obtain ⟨-, h2, h3⟩ := hb
  simp only [pow_zero, Nat.div_one] at h2 h3
  exact ⟨h2, h3⟩

/-- The digit of an index inside a node selects the right child. -/
theorem digit_bounds [NeZero a] (h b n : ℕ) (hd : a ^ (h + 1) ∣ b) (h1 : b ≤ n)
    (h2 : n < b + a ^ (h + 1)) :
    b + (n / a ^ h % a) * a ^ h ≤ n ∧ n < b + (n / a ^ h % a) * a ^ h + a ^ h := by
  obtain ⟨q, hq⟩ := hd
  have hA := pow_pos' (a := a) h
  have ha : 0 < a := Nat.pos_of_ne_zero (NeZero.ne a)
  obtain ⟨r, hr⟩ : ∃ r, n = b + r := ⟨n - b, by omega⟩
  have hn : n / a ^ h = q * a + r / a ^ h := by
    rw [hr, hq, pow_succ, show a ^ h * a * q + r = r + a ^ h * (q * a) by ring,
      Nat.add_mul_div_left _ _ hA, Nat.add_comm]
  have hrlt : r / a ^ h < a := by
    rw [Nat.div_lt_iff_lt_mul hA, Nat.mul_comm, ← pow_succ]; omega
  have hdig : n / a ^ h % a = r / a ^ h := by
    rw [hn, Nat.mul_comm, Nat.mul_add_mod, Nat.mod_eq_of_lt hrlt]
  rw [hdig, Nat.mul_comm]
  have h5 := Nat.div_add_mod r (a ^ h)
  have h6 := Nat.mod_lt r hA
  rw [hr]
  generalize a ^ h * (r / a ^ h) = y at *
  generalize r % a ^ h = z at *
  omega

theorem seqTree_wf [NeZero a] (H : Hasher E ℕ T) (L : List E) (h : ℕ) : ∀ (pre : List (Fin a)) (b : ℕ),
    Base h pre b → WF H id h pre (seqTree H L h b) := by
  induction h with
  | zero =>
    intro pre b hb
    simp only [seqTree]
    cases L[b]? with
    | none => trivial
    | some e => exact ⟨rfl, hb.zero⟩
  | succ h ih =>
    intro pre b hb
    simp only [seqTree]
    split
    · trivial
    · exact ⟨rfl, fun i => ih _ _ (hb.child i)⟩

/-- Looking up an index of the list tree. -/
theorem seqTree_lookup [NeZero a] (H : Hasher E ℕ T) (L : List E) (h : ℕ) :
    ∀ (pre path : List (Fin a)) (b n : ℕ), Base h pre b → b ≤ n → n < b + a ^ h →
      (∀ k, k < h → path[k]? = some (Fin.ofNat a (n / a ^ k))) →
      match L[n]? with
      | some e => ∃ p, lookupInternal H h (seqTree H L h b) path = .ok (.ok e p)
      | none => ∃ p, lookupInternal H h (seqTree H L h b) path = .ok (.notFound p) := by
  induction h with
  | zero =>
    intro pre path b n hb h1 h2 hp
    have : n = b := by simp at h2; omega
    subst this
    simp only [seqTree]
    cases L[n]? <;> simp [lookupInternal, mkLeaf]
  | succ h ih =>
    intro pre path b n hb h1 h2 hp
    by_cases hL : L.length ≤ b
    · rw [List.getElem?_eq_none (by omega), seqTree_empty H L _ _ hL]
      exact ⟨List.replicate (h + 1) [], by simp only [lookupInternal]⟩
    · rw [seqTree_branch H L h b (by omega)]
      have hd := digit_bounds h b n hb.1 h1 h2
      have hih := ih _ path _ n (hb.child (Fin.ofNat a (n / a ^ h))) (by simpa [Fin.ofNat] using hd.1)
        (by simpa [Fin.ofNat] using hd.2) (fun k hk => hp k (by omega))
      have hph := hp h (by omega)
      cases hn : L[n]? with
      | some e =>
        rw [hn] at hih
        obtain ⟨p, hpq⟩ := hih
        simp only [mkBranch, lookupInternal, hph, hpq]
        exact ⟨_, rfl⟩
      | none =>
        rw [hn] at hih
        obtain ⟨p, hpq⟩ := hih
        simp only [mkBranch, lookupInternal, hph, hpq]
        exact ⟨_, rfl⟩

/-! ## `build_tree_internal` -/

theorem chunksAux_getElem? {α : Type} (n : ℕ) (hn : 0 < n) : ∀ (fuel : ℕ) (l : List α) (j : ℕ),
    l.length ≤ fuel →
    (chunksAux n fuel l)[j]? = if j * n < l.length then some ((l.drop (j * n)).take n) else none := by
  intro fuel
  induction fuel with
  | zero =>
    intro l j hl
    have : l = [] := by simpa using hl
    subst this
    simp [chunksAux]
  | succ fuel ih =>
    intro l j hl
    cases l with
    | nil => simp [chunksAux]
    | cons x l =>
      simp only [chunksAux, List.isEmpty_cons, Bool.false_eq_true, if_false]
      cases j with
      | zero => simp
      | succ j =>
        rw [List.getElem?_cons_succ, ih _ _ (by simp at hl ⊢; omega), List.length_drop, List.drop_drop]
        have : n + j * n = (j + 1) * n := by ring
        rw [this]
        by_cases hc : (j + 1) * n < (x :: l).length
        · rw [if_pos hc, if_pos (by omega)]
        · rw [if_neg hc, if_neg (by omega)]

theorem chunks_getElem? {α : Type} (n : ℕ) (hn : 0 < n) (l : List α) (j : ℕ) :
    (chunks n l)[j]? = if j * n < l.length then some ((l.drop (j * n)).take n) else none :=
  chunksAux_getElem? n hn _ l j (le_refl _)

/-- Nodes of level `k`, one per started block of `a^k` elements. -/
def IsLevel (H : Hasher E ℕ T) (L : List E) (k : ℕ) (nodes : List (Node a E ℕ T)) : Prop :=
  ∀ j, nodes[j]? = if j * a ^ k < L.length then some (seqTree H L k (j * a ^ k)) else none

theorem isLevel_length [NeZero a] {X : Type} (k n : ℕ) (nodes : List X)
    (h : ∀ j, nodes[j]?.isSome = true ↔ j * a ^ k < n) (i : ℕ) : i < nodes.length ↔ i * a ^ k < n := by
  rw [← h i]
  simp

theorem isLevel_group [NeZero a] (H : Hasher E ℕ T) (L : List E) (k : ℕ) (nodes : List (Node a E ℕ T))
    (hl : IsLevel H L k nodes) : IsLevel H L (k + 1) (groupLevel H nodes) := by
  intro j
  have ha : 0 < a := Nat.pos_of_ne_zero (NeZero.ne a)
  have hlen := isLevel_length (a := a) k L.length nodes (fun j => by rw [hl j]; split <;> simp [*])
  have hpow : ∀ j, j * a * a ^ k = j * a ^ (k + 1) := by intro j; rw [pow_succ]; ring
  unfold groupLevel
  rw [List.getElem?_map, chunks_getElem? a ha]
  by_cases hj : j * a < nodes.length
  · have hj' : j * a ^ (k + 1) < L.length := by rw [← hpow]; exact (hlen _).mp hj
    rw [if_pos hj, if_pos hj', Option.map_some, seqTree_branch H L k _ hj']
    congr 2
    funext i
    unfold padChildren
    rw [List.getD_eq_getElem?_getD, List.getElem?_take, if_pos i.isLt, List.getElem?_drop, hl]
    have : (j * a + i.val) * a ^ k = j * a ^ (k + 1) + i.val * a ^ k := by rw [Nat.add_mul, hpow]
    rw [this]
    split
    · rfl
    · rw [seqTree_empty H L _ _ (by omega)]; rfl
  · have hj' : ¬ j * a ^ (k + 1) < L.length := by rw [← hpow]; exact fun h => hj ((hlen _).mpr h)
    rw [if_neg hj, if_neg hj']; rfl

theorem isLevel_leaves (H : Hasher E ℕ T) (L : List E) :
    IsLevel H L 0 (L.zipIdx.map fun (e, i) => (mkLeaf H i e : Node a E ℕ T)) := by
  intro j
  simp only [pow_zero, Nat.mul_one, List.getElem?_map, List.getElem?_zipIdx, Nat.zero_add]
  cases hj : L[j]? with
  | none =>
    rw [List.getElem?_eq_none_iff] at hj
    rw [if_neg (by omega)]; simp
  | some e =>
    have : j < L.length := by
      by_contra h
      rw [List.getElem?_eq_none (by omega)] at hj
      simp at hj
    rw [if_pos this, seqTree_leaf H L j e hj]; simp

theorem isLevel_iter [NeZero a] (H : Hasher E ℕ T) (L : List E) (k : ℕ) :
    IsLevel H L k ((groupLevel H)^[k] (L.zipIdx.map fun (e, i) => (mkLeaf H i e : Node a E ℕ T))) := by
  induction k with
  | zero => exact isLevel_leaves H L
  | succ k ih => rw [Function.iterate_succ_apply']; exact isLevel_group H L k _ ih

theorem minHeightLoop_spec (ha : 2 ≤ a) (n : ℕ) : ∀ (fuel h : ℕ), n < fuel + a ^ h →
    1 ≤ fuel → (h = 0 ∨ a ^ (h - 1) < n) →
    ∃ h', minHeightLoop a n fuel h (a ^ h) = .ok h' ∧ n ≤ a ^ h' ∧ (h' = 0 ∨ a ^ (h' - 1) < n) := by
  intro fuel
  induction fuel with
  | zero => intro h _ hf; omega
  | succ fuel ih =>
    intro h hn _ hm
    simp only [minHeightLoop]
    split
    · rename_i hlt
      have : a ^ h * 2 ≤ a ^ h * a := Nat.mul_le_mul_left _ ha
      have hp : 0 < a ^ h := Nat.pow_pos (by omega)
      rw [← pow_succ]
      apply ih (h + 1)
      · rw [pow_succ]; omega
      · omega
      · right; simpa using hlt
    · rename_i hge
      exact ⟨h, rfl, by omega, hm⟩

/-- Smallest sufficient height. -/
theorem chooseHeight_none (ha : 2 ≤ a) (n : ℕ) :
    ∃ h, chooseHeight a none n = .ok h ∧ n ≤ a ^ h ∧ (h = 0 ∨ a ^ (h - 1) < n) := by
  have := minHeightLoop_spec ha n (n + 1) 0 (by simp; omega) (by omega) (Or.inl rfl)
  simpa [chooseHeight] using this

theorem buildTree_spec [NeZero a] (H : Hasher E ℕ T) (ho : Option ℕ) (h : ℕ) (L : List E)
    (hc : chooseHeight a ho L.length = .ok h) :
    buildTree a H ho L = if L.length ≤ a ^ h then .ok (seqTree H L h 0, h, L.length)
      else .error .exceedCapacity := by
  unfold buildTree
  simp only [hc, bind, Except.bind]
  by_cases hle : L.length ≤ a ^ h
  · rw [if_neg (by omega), if_pos hle]
    by_cases h0 : L.length = 0
    · rw [if_pos h0, seqTree_empty H L h 0 (by omega), h0]
    · rw [if_neg h0]
      have hlev := isLevel_iter (a := a) H L h 0
      rw [Nat.zero_mul, if_pos (by omega)] at hlev
      cases h with
      | zero =>
        simp only [Function.iterate_zero, id] at hlev ⊢
        generalize (L.zipIdx.map fun (e, i) => (mkLeaf H i e : Node a E ℕ T)) = ls at hlev
        cases ls with
        | nil => simp at hlev
        | cons l ls =>
          simp only [List.getElem?_cons_zero, Option.some.injEq] at hlev
          simp only [pow_zero] at hle
          rw [hlev, show L.length = 1 by omega]
      | succ h =>
        simp only
        split
        · rename_i n ns heq
          rw [heq] at hlev
          simp at hlev
          rw [hlev]
        · rename_i heq
          rw [heq] at hlev
          simp at hlev
  · rw [if_pos (by omega), if_neg hle]

/-! ## `extend_internal` -/

/-- Where the next element goes, for a node starting at `b`: at the frontier the path digits of the
current size lead to it; elsewhere it is the node's first slot. -/
def Front [NeZero a] (fr : Bool) (path : List (Fin a)) (h b n : ℕ) : Prop :=
  a ^ h ∣ b ∧
  if fr then b ≤ n ∧ n < b + a ^ h ∧ ∀ k, k < h → path[k]? = some (Fin.ofNat a (n / a ^ k))
  else n = b

theorem Front.bounds [NeZero a] {fr : Bool} {path : List (Fin a)} {h b n : ℕ} (hf : Front fr path h b n) :
    b ≤ n ∧ n < b + a ^ h := by
  have := pow_pos' (a := a) h
  cases fr
  · have := hf.2; simp at this; omega
  · have := hf.2; simp at this; omega

/-- The first child that is visited. -/
theorem Front.start [NeZero a] {fr : Bool} {path : List (Fin a)} {h b n : ℕ}
    (hf : Front fr path (h + 1) b n) :
    ∃ s : ℕ, s < a ∧ (if fr then (path[h]?).map Fin.val else some 0) = some s ∧
      b + s * a ^ h ≤ n ∧ n < b + s * a ^ h + a ^ h ∧
      Front fr path h (b + s * a ^ h) n ∧
      ∀ i, s < i → i < a → ∀ n', n' = b + i * a ^ h → Front false path h (b + i * a ^ h) n' := by
  have ha : 0 < a := Nat.pos_of_ne_zero (NeZero.ne a)
  have hA := pow_pos' (a := a) h
  have hdvd : ∀ i, a ^ h ∣ b + i * a ^ h := fun i =>
    Nat.dvd_add (Dvd.dvd.trans ⟨a, by rw [pow_succ]⟩ hf.1) ⟨i, by ring⟩
  have hrest : ∀ i, ∀ n', n' = b + i * a ^ h → Front false path h (b + i * a ^ h) n' := by
    intro i n' hn'
    exact ⟨hdvd i, by simpa using hn'⟩
  cases fr with
  | false =>
    have h2 := hf.2
    simp at h2
    subst h2
    refine ⟨0, ha, by simp, by simp, by simpa using hA, hrest 0 _ (by simp), fun i _ _ => hrest i⟩
  | true =>
    obtain ⟨hd, h1, h2, h3⟩ := hf
    have hdig := digit_bounds h b n hd h1 h2
    refine ⟨n / a ^ h % a, Nat.mod_lt _ ha, ?_, hdig.1, hdig.2, ?_, fun i _ _ => hrest i⟩
    · simp [h3 h (by omega), Fin.ofNat]
    · refine ⟨hdvd _, ?_⟩
      simp only [if_true]
      exact ⟨hdig.1, hdig.2, fun k hk => h3 k (by omega)⟩

theorem extend_seq [NeZero a] (H : Hasher E ℕ T) (path : List (Fin a)) : ∀ (h b : ℕ) (L D : List E)
    (fr : Bool), Front fr path h b L.length →
    extendInternal H h (seqTree H L h b) L.length path fr D =
      .ok (seqTree H (L ++ D.take (b + a ^ h - L.length)) h b,
        min D.length (b + a ^ h - L.length), D.drop (b + a ^ h - L.length)) := by
  intro h
  induction h with
  | zero =>
    intro b L D fr hf
    have hb := hf.bounds
    simp only [pow_zero] at hb
    have hbn : b = L.length := by omega
    subst hbn
    unfold extendInternal
    cases D with
    | nil => simp
    | cons e D =>
      have : (seqTree H L 0 L.length : Node a E ℕ T) = .empty := seqTree_empty H L 0 _ (le_refl _)
      simp only [this, List.isEmpty_cons, Bool.false_eq_true, if_false, pow_zero, Nat.add_sub_cancel_left,
        List.length_cons]
      rw [seqTree_leaf H _ _ e (by simp)]
      simp
  | succ h ih =>
    intro b L D fr hf
    by_cases hD : D = []
    · subst hD
      unfold extendInternal
      simp
    obtain ⟨s, hs, hstart, hs1, hs2, hfs, hfi⟩ := hf.start
    have hbnd := hf.bounds
    have hA := pow_pos' (a := a) h
    have hDl : 0 < D.length := List.length_pos_iff.mpr hD
    set k : ℕ → ℕ := fun i => min D.length (b + i * a ^ h - L.length) with hk
    have hc0 : (match (seqTree H L (h + 1) b : Node a E ℕ T) with
        | .branch _ c => c
        | _ => fun _ => .empty) = fun j : Fin a => seqTree H L h (b + j.val * a ^ h) := by
      by_cases hL : L.length ≤ b
      · rw [seqTree_empty H L _ _ hL]
        funext j
        rw [seqTree_empty H L _ _ (by omega)]
      · rw [seqTree_branch H L h b (by omega)]; rfl
    have hnode : ∀ n : Node a E ℕ T, n = seqTree H L (h + 1) b → (n = .empty ∨ ∃ v c, n = .branch v c) := by
      intro n hn
      subst hn
      by_cases hL : L.length ≤ b
      · left; exact seqTree_empty H L _ _ hL
      · right; rw [seqTree_branch H L h b (by omega)]; exact ⟨_, _, rfl⟩
    have hloop := foldl_from (a := a) s hs.le
      (fun (st : Except MErr (ExtAcc a E ℕ T)) i =>
              match st with
              | .error e => .error e
              | .ok acc =>
                if acc.data.isEmpty then .ok acc
                else
                  match extendInternal H h (acc.children i) acc.curPos path
                      (fr && i.val == s) acc.data with
                  | .error e => .error e
                  | .ok (n, inc, rest) =>
                    .ok ⟨Function.update acc.children i n, acc.curPos + inc, acc.cnt + inc, rest⟩)
      (fun i st => st = .ok (⟨fun j => seqTree H (L ++ D.take (k i)) h (b + j.val * a ^ h),
        L.length + k i, k i, D.drop (k i)⟩ : ExtAcc a E ℕ T))
      (.ok ⟨fun j => seqTree H L h (b + j.val * a ^ h), L.length, 0, D⟩)
      (by
        have : k s = 0 := by simp only [hk]; omega
        rw [this]; simp)
      (by
        intro i hi st hst
        subst hst
        simp only
        have hi1 : (i.val + 1) * a ^ h = i.val * a ^ h + a ^ h := by ring
        have hsi : s * a ^ h ≤ i.val * a ^ h := Nat.mul_le_mul_right _ hi
        by_cases hemp : D.length ≤ k i
        · have e1 : D.drop (k i) = [] := List.drop_of_length_le hemp
          have e2 : k (i.val + 1) = D.length := by
            simp only [hk] at hemp ⊢; rw [hi1]; omega
          have e3 : k i.val = D.length := by simp only [hk] at hemp ⊢; omega
          rw [e1, e2, e3]
          simp
        · have hki : k i.val = b + i.val * a ^ h - L.length := by
            simp only [hk] at hemp ⊢; omega
          have hne : (D.drop (k i)).isEmpty = false := by
            rw [List.isEmpty_eq_false_iff]
            intro hx
            rw [List.drop_eq_nil_iff] at hx
            omega
          rw [hne]
          simp only [Bool.false_eq_true, if_false]
          have hlenk : (L ++ D.take (k i)).length = L.length + k i := by simp; omega
          have hfr : Front (fr && i.val == s) path h (b + i.val * a ^ h) (L ++ D.take (k i)).length := by
            by_cases his : i.val = s
            · have : k i.val = 0 := by rw [hki, his]; omega
              rw [his] at this ⊢
              simpa [this] using hfs
            · have : (i.val == s) = false := by simpa using his
              rw [this, Bool.and_false]
              apply hfi i.val (by omega) i.isLt
              have : (s + 1) * a ^ h ≤ i.val * a ^ h := Nat.mul_le_mul_right _ (by omega)
              rw [Nat.add_mul, Nat.one_mul] at this
              rw [hlenk]; omega
          have hrec := ih (b + i.val * a ^ h) (L ++ D.take (k i)) (D.drop (k i)) _ hfr
          rw [hlenk] at hrec
          rw [hrec]
          simp only
          have hbi := hfr.bounds
          rw [hlenk] at hbi
          set r := b + i.val * a ^ h + a ^ h - (L.length + k i.val) with hr
          have hkr : k (i.val + 1) = k i.val + min (D.length - k i.val) r := by
            simp only [hk] at hemp ⊢; rw [hi1]; omega
          have htake : L ++ D.take (k i.val) ++ (D.drop (k i.val)).take r =
              L ++ D.take (k (i.val + 1)) := by
            rw [List.append_assoc, ← List.take_add, hkr]
            congr 1
            by_cases hx : D.length - k i.val ≤ r
            · rw [List.take_of_length_le (by omega), List.take_of_length_le (by omega)]
            · congr 1; omega
          rw [htake, List.drop_drop, List.length_drop, hkr]
          congr 2
          · funext j
            by_cases hji : j = i
            · subst hji; rw [Function.update_self]
            · rw [Function.update_of_ne hji, ← hkr]
              apply seqTree_congr
              intro x hx1 hx2
              have hjv : j.val ≠ i.val := fun h => hji (Fin.ext h)
              rcases Nat.lt_or_gt_of_ne hjv with hlt | hgt
              · have : (j.val + 1) * a ^ h ≤ i.val * a ^ h := Nat.mul_le_mul_right _ hlt
                rw [Nat.add_mul, Nat.one_mul] at this
                have hxl : x < (L ++ D.take (k i)).length := by rw [hlenk]; omega
                rw [← htake, List.getElem?_append_left hxl]
              · have : (i.val + 1) * a ^ h ≤ j.val * a ^ h := Nat.mul_le_mul_right _ hgt
                rw [Nat.add_mul, Nat.one_mul] at this
                rw [List.getElem?_eq_none (by rw [hlenk]; omega), List.getElem?_eq_none]
                rw [List.length_append, List.length_take, hkr]; omega
          · omega
          · by_cases hx : D.length - k i.val ≤ r
            · rw [List.drop_of_length_le (by omega), List.drop_of_length_le (by omega)]
            · congr 1; omega)
    have hka : k a = min D.length (b + a ^ (h + 1) - L.length) := by
      simp only [hk]; rw [pow_succ, Nat.mul_comm (a ^ h) a]
    have hmain : extendInternal H (h + 1) (seqTree H L (h + 1) b) L.length path fr D =
        .ok (mkBranch H (fun j => seqTree H (L ++ D.take (k a)) h (b + j.val * a ^ h)), k a, D.drop (k a)) := by
      unfold extendInternal
      have hDe : D.isEmpty = false := by rw [List.isEmpty_eq_false_iff]; exact hD
      rw [hDe]
      simp only [Bool.false_eq_true, if_false]
      generalize hN : (seqTree H L (h + 1) b : Node a E ℕ T) = N at hc0 ⊢
      rcases hnode N hN.symm with hN' | ⟨v, c, hN'⟩
      · subst hN'
        simp only [hstart] at hc0 ⊢
        rw [hc0]
        exact congrArg (fun st : Except MErr (ExtAcc a E ℕ T) => match st with
          | .error e => Except.error e
          | .ok acc => .ok (mkBranch H acc.children, acc.cnt, acc.data)) hloop
      · subst hN'
        simp only [hstart] at hc0 ⊢
        rw [hc0]
        exact congrArg (fun st : Except MErr (ExtAcc a E ℕ T) => match st with
          | .error e => Except.error e
          | .ok acc => .ok (mkBranch H acc.children, acc.cnt, acc.data)) hloop
    rw [hmain]
    have ht : D.take (k a) = D.take (b + a ^ (h + 1) - L.length) := by
      rw [hka]
      by_cases hx : D.length ≤ b + a ^ (h + 1) - L.length
      · rw [List.take_of_length_le (by omega), List.take_of_length_le (by omega)]
      · congr 1; omega
    have hd : D.drop (k a) = D.drop (b + a ^ (h + 1) - L.length) := by
      rw [hka]
      by_cases hx : D.length ≤ b + a ^ (h + 1) - L.length
      · rw [List.drop_of_length_le (by omega), List.drop_of_length_le (by omega)]
      · congr 1; omega
    rw [← ht, ← hd, ← hka, seqTree_branch]
    simp only [List.length_append, List.length_take, hka]
    omega

/-- A full subtree rejects every extension. -/
theorem extend_full [NeZero a] (H : Hasher E ℕ T) (path : List (Fin a)) : ∀ (h b pos : ℕ) (L D : List E)
    (fr : Bool), b + a ^ h ≤ L.length → (fr = true → ∀ k, k < h → path[k]? = some 0) → D ≠ [] →
    extendInternal H h (seqTree H L h b) pos path fr D = .error .existingLeaf := by
  intro h
  induction h with
  | zero =>
    intro b pos L D fr hb hp hD
    unfold extendInternal
    have hDe : D.isEmpty = false := by rw [List.isEmpty_eq_false_iff]; exact hD
    simp at hb
    rw [hDe, seqTree_leaf H L b (L[b]'(by omega)) (List.getElem?_eq_getElem _)]
    simp [mkLeaf]
  | succ h ih =>
    intro b pos L D fr hb hp hD
    have ha : 0 < a := Nat.pos_of_ne_zero (NeZero.ne a)
    have hA := pow_pos' (a := a) h
    have hAA : a ^ h ≤ a ^ (h + 1) := Nat.pow_le_pow_right ha (by omega)
    have hDe : D.isEmpty = false := by rw [List.isEmpty_eq_false_iff]; exact hD
    unfold extendInternal
    rw [hDe, seqTree_branch H L h b (by have := pow_pos' (a := a) (h + 1); omega)]
    have hst : (if fr = true then Option.map Fin.val path[h]? else some 0) = some 0 := by
      cases fr
      · rfl
      · simp [hp rfl h (by omega)]
    simp only [Bool.false_eq_true, if_false, mkBranch, hst]
    have hfr : ((List.finRange a).filter fun i => 0 ≤ i.val) =
        ⟨0, ha⟩ :: (List.finRange a).drop 1 := by
      rw [filter_finRange_eq_drop, List.drop_eq_getElem_cons (by simpa using ha)]
      simp
    rw [hfr, List.foldl_cons]
    simp only [hDe, Bool.false_eq_true, if_false, Nat.zero_mul, Nat.add_zero]
    rw [ih b pos L D _ (by omega) _ hD]
    · simp only
      have : ∀ (l : List (Fin a)) (f : Except MErr (ExtAcc a E ℕ T) → Fin a → Except MErr (ExtAcc a E ℕ T)),
          (∀ e i, f (.error e) i = .error e) → ∀ e, l.foldl f (.error e) = .error e := by
        intro l f hf e
        induction l with
        | nil => rfl
        | cons x l ih => rw [List.foldl_cons, hf, ih]
      rw [this]
      intro e i; rfl
    · intro hfr' k hk
      simp only [Bool.and_eq_true] at hfr'
      exact hp hfr'.1 k (by omega)

end Verif.Merkle
