import Verif.Merkle.Range

/-! # Verification and binding of range proofs -/

namespace Verif.Merkle

variable {a : ℕ} {E I T : Type}

theorem levelVal_succ [NeZero a] (H : Hasher E ℕ T) (L : List E) (k J : ℕ)
    (hJ : J * a ^ (k + 1) < L.length) :
    levelVal a H L (k + 1) J = H.digest ((List.range' (J * a) a).map (levelVal a H L k)) := by
  unfold levelVal
  rw [seqTree_branch H L k _ hJ]
  simp only [mkBranch, digestBranch]
  show H.digest _ = _
  congr 1
  apply List.ext_getElem
  · simp
  · intro j h1 h2
    simp only [List.getElem_ofFn, List.getElem_map, List.getElem_range', Nat.one_mul]
    rw [show (J * a + j) * a ^ k = J * a ^ (k + 1) + j * a ^ k by rw [pow_succ]; ring]

theorem levelVal_chunks [NeZero a] (H : Hasher E ℕ T) (L : List E) (k X n : ℕ)
    (hn : ∀ J, J < X + n → J * a ^ (k + 1) < L.length) :
    (chunks a ((List.range' (X * a) (n * a)).map (levelVal a H L k))).map H.digest =
      (List.range' X n).map (levelVal a H L (k + 1)) := by
  have ha : 0 < a := Nat.pos_of_ne_zero (NeZero.ne a)
  apply List.ext_getElem?
  intro j
  rw [List.getElem?_map, chunks_getElem? a ha, List.getElem?_map]
  simp only [List.length_map, List.length_range']
  by_cases hj : j < n
  · have h1 : j * a < n * a := Nat.mul_lt_mul_of_pos_right hj ha
    rw [if_pos h1, List.getElem?_range' hj]
    simp only [Option.map_some, Nat.one_mul]
    rw [levelVal_succ H L k _ (hn _ (by omega))]
    congr 2
    apply List.ext_getElem
    · simp
      have h2 : (j + 1) * a ≤ n * a := Nat.mul_le_mul_right _ hj
      rw [Nat.add_mul, Nat.one_mul] at h2
      omega
    · intro i h1 h2
      simp
      congr 1
      ring
  · have h1 : ¬ j * a < n * a := by
      intro h; exact hj (Nat.lt_of_mul_lt_mul_right h)
    rw [if_neg h1, List.getElem?_eq_none (by simp; omega)]
    rfl

theorem segment_append [NeZero a] {X : Type} (f : ℕ → X) (x y : ℕ) (hxy : x ≤ y) :
    (List.range' (x / a * a) (x % a)).map f ++ (List.range' x (y + 1 - x)).map f ++
      (List.range' (y + 1) (a - 1 - y % a)).map f =
    (List.range' (x / a * a) ((y / a + 1 - x / a) * a)).map f := by
  have ha : 0 < a := Nat.pos_of_ne_zero (NeZero.ne a)
  have h1 : x / a * a + x % a = x := Nat.div_add_mod' x a
  have h2 : y / a * a + y % a = y := Nat.div_add_mod' y a
  have h3 := Nat.mod_lt y ha
  have h4 : x / a ≤ y / a := Nat.div_le_div_right hxy
  have h5 : (y / a + 1 - x / a) * a = y / a * a + a - x / a * a := by
    rw [Nat.sub_mul, Nat.add_mul, Nat.one_mul]
  have h6 : x / a * a ≤ y / a * a := Nat.mul_le_mul_right _ h4
  rw [← List.map_append, ← List.map_append]
  congr 1
  have e1 : List.range' (x / a * a) (x % a) ++ List.range' x (y + 1 - x) =
      List.range' (x / a * a) (x % a + (y + 1 - x)) := by
    conv_lhs => rw [← h1]
    rw [h1]
    have := List.range'_append_1 (s := x / a * a) (m := x % a) (n := y + 1 - x)
    rw [h1] at this
    exact this
  rw [e1]
  have := List.range'_append_1 (s := x / a * a) (m := x % a + (y + 1 - x)) (n := a - 1 - y % a)
  rw [show x / a * a + (x % a + (y + 1 - x)) = y + 1 by omega] at this
  rw [this]
  congr 1
  omega

theorem rangeLoop_append (H : Hasher E I T) (l₁ l₂ : List (List T × List T)) : ∀ (v : List T),
    rangeLoop a H (l₁ ++ l₂) v = (rangeLoop a H l₁ v).bind fun w => rangeLoop a H l₂ w := by
  induction l₁ with
  | nil => intro v; rfl
  | cons x l₁ ih =>
    intro v
    obtain ⟨l, r⟩ := x
    simp only [List.cons_append, rangeLoop]
    split
    · rfl
    · exact ih _

theorem rangeLoop_seq [NeZero a] (H : Hasher E ℕ T) (L : List E) (lo hi : ℕ) (hlh : lo ≤ hi)
    (hL : hi < L.length) : ∀ h,
    rangeLoop a H ((leftBound a H L lo h).zip (rightBound a H L hi h))
      ((List.range' lo (hi + 1 - lo)).map (levelVal a H L 0)) =
    .ok ((List.range' (lo / a ^ h) (hi / a ^ h + 1 - lo / a ^ h)).map (levelVal a H L h)) := by
  intro h
  induction h with
  | zero => simp [leftBound, rightBound, rangeLoop]
  | succ h ih =>
    have ha : 0 < a := Nat.pos_of_ne_zero (NeZero.ne a)
    have hzip : (leftBound a H L lo (h + 1)).zip (rightBound a H L hi (h + 1)) =
        (leftBound a H L lo h).zip (rightBound a H L hi h) ++
        [((List.range' (lo / a ^ (h + 1) * a) (lo / a ^ h % a)).map (levelVal a H L h),
          (List.range' (hi / a ^ h + 1) (a - 1 - hi / a ^ h % a)).map (levelVal a H L h))] := by
      unfold leftBound rightBound
      rw [List.range_succ, List.map_append, List.map_append, List.zip_append (by simp)]
      rfl
    rw [hzip, rangeLoop_append, ih]
    simp only [Except.bind, rangeLoop]
    have hdd : ∀ x, x / a ^ (h + 1) = x / a ^ h / a := by
      intro x; rw [Nat.div_div_eq_div_mul, pow_succ]
    rw [hdd, hdd]
    have hle : lo / a ^ h ≤ hi / a ^ h := Nat.div_le_div_right hlh
    rw [segment_append (levelVal a H L h) _ _ hle]
    rw [if_neg (by simp)]
    congr 1
    have h4 : lo / a ^ h / a ≤ hi / a ^ h / a := Nat.div_le_div_right hle
    apply levelVal_chunks
    intro J hJ
    have : J ≤ hi / a ^ (h + 1) := by rw [hdd]; omega
    calc J * a ^ (h + 1) ≤ hi / a ^ (h + 1) * a ^ (h + 1) := Nat.mul_le_mul_right _ this
      _ ≤ hi := Nat.div_mul_le_self _ _
      _ < _ := hL

theorem levelVal_zero_zip (H : Hasher E ℕ T) (L : List E) (lo n : ℕ) (hn : lo + n ≤ L.length) :
    List.zipWith H.digestLeaf (List.range' lo n) ((L.drop lo).take n) =
      (List.range' lo n).map (levelVal a H L 0) := by
  apply List.ext_getElem
  · simp; omega
  · intro i h1 h2
    simp only [List.length_map, List.length_range'] at h2
    simp only [List.getElem_zipWith, List.getElem_range', List.getElem_take, List.getElem_drop,
      List.getElem_map, levelVal, pow_zero, Nat.mul_one, Nat.one_mul]
    rw [seqTree_leaf H L (lo + i) L[lo + i] (List.getElem?_eq_getElem (by omega))]
    rfl

/-! ## Binding -/

/-- All lists hashed by the range verifier, in order. -/
def rangeInputs (a : ℕ) (H : Hasher E I T) : List (List T × List T) → List T → List (List T)
  | [], _ => []
  | (l, r) :: rest, values =>
    chunks a (l ++ values ++ r) ++ rangeInputs a H rest ((chunks a (l ++ values ++ r)).map H.digest)

/-- Same number of siblings on each side at each level. -/
def SameShape (l₁ l₂ : List (List T × List T)) : Prop :=
  l₁.map (fun x => (x.1.length, x.2.length)) = l₂.map (fun x => (x.1.length, x.2.length))

theorem chunks_length_eq {α : Type} (n : ℕ) (hn : 0 < n) (l l' : List α) (h : l.length = l'.length) :
    (chunks n l).length = (chunks n l').length := by
  have key : ∀ j, j < (chunks n l).length ↔ j < (chunks n l').length := by
    intro j
    have e1 := chunks_getElem? n hn l j
    have e2 := chunks_getElem? n hn l' j
    rw [h] at e1
    constructor
    · intro hj
      rw [List.getElem?_eq_getElem hj] at e1
      split at e1
      · by_contra hc
        rw [if_pos ‹_›, List.getElem?_eq_none (by omega)] at e2
        simp at e2
      · simp at e1
    · intro hj
      rw [List.getElem?_eq_getElem hj] at e2
      split at e2
      · by_contra hc
        rw [if_pos ‹_›, List.getElem?_eq_none (by omega)] at e1
        simp at e1
      · simp at e2
  have h1 := key (chunks n l').length
  have h2 := key (chunks n l).length
  omega

theorem chunksAux_flatten {α : Type} (n : ℕ) (hn : 0 < n) : ∀ (fuel : ℕ) (l : List α),
    l.length ≤ fuel → (chunksAux n fuel l).flatten = l := by
  intro fuel
  induction fuel with
  | zero => intro l hl; have : l = [] := by simpa using hl
            subst this; rfl
  | succ fuel ih =>
    intro l hl
    cases l with
    | nil => rfl
    | cons x l =>
      simp only [chunksAux, List.isEmpty_cons, Bool.false_eq_true, if_false, List.flatten_cons]
      rw [ih _ (by simp at hl ⊢; omega), List.take_append_drop]

theorem chunks_flatten {α : Type} (n : ℕ) (hn : 0 < n) (l : List α) : (chunks n l).flatten = l :=
  chunksAux_flatten n hn _ l (le_refl _)

theorem chunks_inj {α : Type} (n : ℕ) (hn : 0 < n) {l l' : List α} (h : chunks n l = chunks n l') :
    l = l' := by
  rw [← chunks_flatten n hn l, h, chunks_flatten n hn]

/-- Equal digests of two equally long sequences of inputs: the sequences are equal or two inputs at the
same place collide. -/
theorem digests_eq (H : Hasher E I T) (X Y : List (List T)) (h : X.map H.digest = Y.map H.digest) :
    X = Y ∨ ∃ (k : ℕ) (x y : List T), X[k]? = some x ∧ Y[k]? = some y ∧ x ≠ y ∧
      H.digest x = H.digest y := by
  induction X generalizing Y with
  | nil => left; cases Y with
    | nil => rfl
    | cons y Y => simp at h
  | cons x X ih =>
    cases Y with
    | nil => simp at h
    | cons y Y =>
      simp only [List.map_cons, List.cons.injEq] at h
      by_cases hxy : x = y
      · rcases ih Y h.2 with h1 | ⟨k, x', y', h1⟩
        · left; rw [hxy, h1]
        · right; exact ⟨k + 1, x', y', by simpa using h1⟩
      · right; exact ⟨0, x, y, by simp, by simp, hxy, h.1⟩

theorem range_binding (H : Hasher E I T) (ha : 0 < a) : ∀ (p₁ p₂ : List (List T × List T)) (v₁ v₂ w : List T),
    SameShape p₁ p₂ → v₁.length = v₂.length →
    rangeLoop a H p₁ v₁ = .ok w → rangeLoop a H p₂ v₂ = .ok w →
    (v₁ = v₂ ∧ p₁ = p₂) ∨ ∃ (k : ℕ) (x y : List T), (rangeInputs a H p₁ v₁)[k]? = some x ∧
      (rangeInputs a H p₂ v₂)[k]? = some y ∧ x ≠ y ∧ H.digest x = H.digest y := by
  intro p₁
  induction p₁ with
  | nil =>
    intro p₂ v₁ v₂ w hs hl h1 h2
    have : p₂ = [] := by
      cases p₂ with
      | nil => rfl
      | cons x p => simp [SameShape] at hs
    subst this
    simp only [rangeLoop, Except.ok.injEq] at h1 h2
    left; exact ⟨by rw [h1, h2], rfl⟩
  | cons x p₁ ih =>
    intro p₂ v₁ v₂ w hs hl h1 h2
    cases p₂ with
    | nil => simp [SameShape] at hs
    | cons y p₂ =>
      obtain ⟨l, r⟩ := x
      obtain ⟨l', r'⟩ := y
      simp only [SameShape, List.map_cons, List.cons.injEq, Prod.mk.injEq] at hs
      obtain ⟨⟨hsl, hsr⟩, hs'⟩ := hs
      simp only [rangeLoop] at h1 h2
      split at h1
      · simp at h1
      split at h2
      · simp at h2
      have hlen : (l ++ v₁ ++ r).length = (l' ++ v₂ ++ r').length := by simp; omega
      have hcl := chunks_length_eq a ha _ _ hlen
      rcases ih p₂ _ _ w hs' (by simpa using hcl) h1 h2 with ⟨he, hp⟩ | ⟨k, x, y, hx, hy, hne, hd⟩
      · rcases digests_eq H _ _ he with hc | ⟨k, x, y, hx, hy, hne, hd⟩
        · left
          have happ := chunks_inj a ha hc
          have h3 := List.append_inj happ (by simp; omega)
          have h4 := List.append_inj h3.1 hsl
          exact ⟨h4.2, by rw [hp, h4.1, h3.2]⟩
        · right
          refine ⟨k, x, y, ?_, ?_, hne, hd⟩
          · simp only [rangeInputs]
            rw [List.getElem?_append_left (by by_contra hh; rw [List.getElem?_eq_none (by omega)] at hx; simp at hx)]
            exact hx
          · simp only [rangeInputs]
            rw [List.getElem?_append_left (by by_contra hh; rw [List.getElem?_eq_none (by omega)] at hy; simp at hy)]
            exact hy
      · right
        refine ⟨(chunks a (l ++ v₁ ++ r)).length + k, x, y, ?_, ?_, hne, hd⟩
        · simp only [rangeInputs]
          rw [List.getElem?_append_right (by omega), Nat.add_sub_cancel_left]
          exact hx
        · simp only [rangeInputs]
          rw [List.getElem?_append_right (by omega), hcl, Nat.add_sub_cancel_left]
          exact hy

theorem verifyRange_iff [DecidableEq T] (H : Hasher E I T) (com : T) (is : List I) (es : List E)
    (p : RangeProof T) : verifyRangeProof a H com is es p = .ok true ↔
      is.length = es.length ∧
        rangeLoop a H (p.lbound.zip p.rbound) (List.zipWith H.digestLeaf is es) = .ok [com] := by
  unfold verifyRangeProof
  by_cases hl : is.length = es.length
  · rw [if_neg (by simpa using hl)]
    simp only [hl, true_and]
    cases hr : rangeLoop a H (p.lbound.zip p.rbound) (List.zipWith H.digestLeaf is es) with
    | error e => simp [bind, Except.bind]
    | ok w =>
      simp only [bind, Except.bind, Except.ok.injEq]
      match w with
      | [] => simp
      | [v] => simp
      | v :: v' :: t => simp
  · rw [if_pos hl]; simp [hl]

end Verif.Merkle
