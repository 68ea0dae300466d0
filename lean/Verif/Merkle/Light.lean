import Verif.Merkle.Append

/-! # Light-weight trees -/

namespace Verif.Merkle

variable {a : ℕ} {E I T : Type}

/-- `n` is `m` with some subtrees replaced by their hash value. -/
inductive Pruned (H : Hasher E I T) : Node a E I T → Node a E I T → Prop
  | refl (m : Node a E I T) : Pruned H m m
  | forgotten (m : Node a E I T) : Pruned H (.forgotten (m.value H)) m
  | branch (v : T) (c c' : Fin a → Node a E I T) : (∀ i, Pruned H (c i) (c' i)) →
      Pruned H (.branch v c) (.branch v c')

theorem Pruned.value_eq (H : Hasher E I T) {n m : Node a E I T} (hp : Pruned H n m) :
    n.value H = m.value H := by
  cases hp <;> rfl

theorem Pruned.forget (H : Hasher E I T) {n m : Node a E I T} (hp : Pruned H n m) :
    Pruned H (.forgotten (n.value H)) m := by
  rw [hp.value_eq]; exact .forgotten m

theorem siblings_congr (H : Hasher E I T) (c c' : Fin a → Node a E I T) (b : Fin a)
    (h : ∀ i, (c i).value H = (c' i).value H) : siblings H c b = siblings H c' b := by
  unfold siblings
  simp only [h]

theorem digestBranch_congr (H : Hasher E I T) (c c' : Fin a → Node a E I T)
    (h : ∀ i, (c i).value H = (c' i).value H) : digestBranch H c = digestBranch H c' := by
  unfold digestBranch
  simp only [h]

/-- A lookup in a pruned tree is either "not in memory" or the same as in the full tree. -/
theorem Pruned.lookup (H : Hasher E I T) (path : List (Fin a)) : ∀ (h : ℕ) (n m : Node a E I T),
    Pruned H n m → (∀ x, lookupInternal H h m path = .ok x →
      lookupInternal H h n path = .ok x ∨ lookupInternal H h n path = .ok .notInMemory) := by
  intro h
  induction h with
  | zero =>
    intro n m hp x hx
    cases hp with
    | refl => left; exact hx
    | forgotten => right; simp [lookupInternal]
    | branch v c c' hc => simp [lookupInternal] at hx
  | succ h ih =>
    intro n m hp x hx
    cases hp with
    | refl => left; exact hx
    | forgotten => right; simp [lookupInternal]
    | branch v c c' hc =>
      simp only [lookupInternal] at hx ⊢
      cases hb : path[h]? with
      | none => rw [hb] at hx; simp at hx
      | some b =>
        rw [hb] at hx
        simp only at hx ⊢
        cases hr : lookupInternal H h (c' b) path with
        | error e => rw [hr] at hx; simp at hx
        | ok y =>
          have hs := siblings_congr H c c' b fun i => (hc i).value_eq
          rw [hr] at hx
          rcases ih _ _ (hc b) y hr with h1 | h1
          · left
            rw [h1, ← hx]
            cases y <;> simp [hs]
          · right
            rw [h1]

/-- The node of a light-weight tree for list `L`: untouched slots are empty, the node containing the
last element is in memory, everything before is a pruned version of the full tree. -/
def LW (H : Hasher E ℕ T) (L : List E) : ℕ → ℕ → Node a E ℕ T → Prop
  | 0, b, n => if b + 1 < L.length then Pruned H n (seqTree H L 0 b) else n = seqTree H L 0 b
  | h + 1, b, n =>
    if L.length ≤ b then n = .empty
    else if b + a ^ (h + 1) < L.length then Pruned H n (seqTree H L (h + 1) b)
    else ∃ c : Fin a → Node a E ℕ T, n = mkBranch H c ∧ ∀ i, LW H L h (b + i.val * a ^ h) (c i)

theorem LW.pruned (H : Hasher E ℕ T) (L : List E) : ∀ (h b : ℕ) (n : Node a E ℕ T),
    LW H L h b n → Pruned H n (seqTree H L h b) := by
  intro h
  induction h with
  | zero =>
    intro b n hl
    simp only [LW] at hl
    split at hl
    · exact hl
    · rw [hl]; exact .refl _
  | succ h ih =>
    intro b n hl
    simp only [LW] at hl
    split at hl
    · rename_i hle
      rw [hl, seqTree_empty H L _ _ hle]; exact .refl _
    · split at hl
      · exact hl
      · rename_i hle _
        obtain ⟨c, rfl, hc⟩ := hl
        rw [seqTree_branch H L h b (by omega)]
        unfold mkBranch
        rw [digestBranch_congr H c _ fun i => (ih _ _ (hc i)).value_eq]
        exact .branch _ _ _ fun i => ih _ _ (hc i)

theorem LW.empty [NeZero a] (H : Hasher E ℕ T) (L : List E) (h b : ℕ) (n : Node a E ℕ T) (hb : L.length ≤ b) :
    LW H L h b n ↔ n = .empty := by
  cases h with
  | zero => simp only [LW]; rw [if_neg (by omega), seqTree_empty H L _ _ hb]
  | succ h => simp only [LW]; rw [if_pos hb]

theorem LW.of_pruned (H : Hasher E ℕ T) (L : List E) (h b : ℕ) (n : Node a E ℕ T)
    (hb : b + a ^ h < L.length) (hp : Pruned H n (seqTree H L h b)) : LW H L h b n := by
  cases h with
  | zero => simp only [LW]; rw [if_pos (by simpa using hb)]; exact hp
  | succ h => simp only [LW]; rw [if_neg (by omega), if_pos hb]; exact hp

/-- The most recent element can be looked up as in the full tree. -/
theorem LW.lookup_last [NeZero a] (H : Hasher E ℕ T) (L : List E) (path : List (Fin a)) :
    ∀ (h b n : ℕ) (nd : Node a E ℕ T), L.length = n + 1 → a ^ h ∣ b → b ≤ n → n < b + a ^ h →
      (∀ k, k < h → path[k]? = some (Fin.ofNat a (n / a ^ k))) → LW H L h b nd →
      lookupInternal H h nd path = lookupInternal H h (seqTree H L h b) path := by
  intro h
  induction h with
  | zero =>
    intro b n nd hn hd h1 h2 hp hl
    simp only [LW] at hl
    simp at h2
    rw [if_neg (by omega)] at hl
    rw [hl]
  | succ h ih =>
    intro b n nd hn hd h1 h2 hp hl
    simp only [LW] at hl
    rw [if_neg (by omega), if_neg (by omega)] at hl
    obtain ⟨c, rfl, hc⟩ := hl
    rw [seqTree_branch H L h b (by omega)]
    have hdig := digit_bounds h b n hd h1 h2
    have hdvd : a ^ h ∣ b + (n / a ^ h % a) * a ^ h :=
      Nat.dvd_add (Dvd.dvd.trans ⟨a, by rw [pow_succ]⟩ hd) ⟨n / a ^ h % a, by ring⟩
    have hih := ih _ n (c (Fin.ofNat a (n / a ^ h))) hn hdvd hdig.1 hdig.2 (fun k hk => hp k (by omega))
      (by have := hc (Fin.ofNat a (n / a ^ h)); simpa [Fin.ofNat] using this)
    simp only [mkBranch, lookupInternal, hp h (by omega)]
    have hs := siblings_congr H c (fun i : Fin a => seqTree H L h (b + i.val * a ^ h))
      (Fin.ofNat a (n / a ^ h)) fun i => (LW.pruned H L _ _ _ (hc i)).value_eq
    rw [hih, hs]
    rfl

/-- Enlarging the list: a completely filled node may become pruned. -/
theorem LW.mono [NeZero a] (H : Hasher E ℕ T) (L L' : List E) (h b : ℕ) (n : Node a E ℕ T)
    (hpre : ∀ x, x < L.length → L[x]? = L'[x]?) (hb : b + a ^ h ≤ L.length)
    (hb' : b + a ^ h < L'.length) (hl : LW H L h b n) : LW H L' h b n := by
  apply LW.of_pruned H L' h b n hb'
  rw [← seqTree_congr H L L' h b (fun x _ h2 => hpre x (by omega))]
  exact hl.pruned

theorem extendLight_spec [NeZero a] (H : Hasher E ℕ T) (path : List (Fin a)) : ∀ (h b : ℕ) (L D : List E)
    (fr : Bool) (nd : Node a E ℕ T), Front fr path h b L.length → LW H L h b nd →
    ∃ nd', extendAndForgetInternal H h nd L.length path fr D =
      .ok (nd', min D.length (b + a ^ h - L.length), D.drop (b + a ^ h - L.length)) ∧
      LW H (L ++ D.take (b + a ^ h - L.length)) h b nd' := by
  intro h
  induction h with
  | zero =>
    intro b L D fr nd hf hl
    have hb := hf.bounds
    simp only [pow_zero] at hb
    have hbn : b = L.length := by omega
    subst hbn
    rw [LW.empty H L 0 _ _ (le_refl _)] at hl
    subst hl
    unfold extendAndForgetInternal
    cases D with
    | nil =>
      refine ⟨.empty, by simp, ?_⟩
      simp only [List.take_nil, List.append_nil]
      rw [LW.empty H L 0 _ _ (le_refl _)]
    | cons e D =>
      simp only [List.isEmpty_cons, Bool.false_eq_true, if_false, pow_zero, Nat.add_sub_cancel_left,
        List.length_cons]
      refine ⟨mkLeaf H L.length e, by simp, ?_⟩
      simp only [LW]
      rw [if_neg (by simp), seqTree_leaf H _ _ e (by simp)]
  | succ h ih =>
    intro b L D fr nd hf hl
    by_cases hD : D = []
    · subst hD
      unfold extendAndForgetInternal
      exact ⟨nd, by simp, by simpa using hl⟩
    obtain ⟨s, hs, hstart, hs1, hs2, hfs, hfi⟩ := hf.start
    have hbnd := hf.bounds
    have hA := pow_pos' (a := a) h
    have hDl : 0 < D.length := List.length_pos_iff.mpr hD
    set k : ℕ → ℕ := fun i => min D.length (b + i * a ^ h - L.length) with hk
    have hnd : (nd = .empty ∧ L.length ≤ b) ∨
        ∃ v c, nd = .branch v c ∧ ∀ i : Fin a, LW H L h (b + i.val * a ^ h) (c i) := by
      by_cases hL : L.length ≤ b
      · left; exact ⟨(LW.empty H L _ _ _ hL).mp hl, hL⟩
      · right
        simp only [LW] at hl
        rw [if_neg hL, if_neg (by omega)] at hl
        obtain ⟨c, rfl, hc⟩ := hl
        exact ⟨_, c, rfl, hc⟩
    have hc0 : ∀ j : Fin a, LW H L h (b + j.val * a ^ h) ((match nd with
        | .branch _ c => c
        | _ => fun _ => .empty) j) := by
      rcases hnd with ⟨rfl, hL⟩ | ⟨v, c, rfl, hc⟩
      · intro j
        rw [LW.empty H L _ _ _ (by omega)]
      · exact hc
    generalize hC : (match nd with
        | .branch _ c => c
        | _ => fun _ => .empty : Fin a → Node a E ℕ T) = c0 at hc0
    have hloop := foldl_from (a := a) s hs.le
      (fun (st : Except MErr (ExtAcc a E ℕ T)) i =>
              match st with
              | .error e => .error e
              | .ok acc =>
                if acc.data.isEmpty then .ok acc
                else
                  let c := forgetPrev H acc.children i
                  match extendAndForgetInternal H h (c i) acc.curPos path
                      (fr && i.val == s) acc.data with
                  | .error e => .error e
                  | .ok (n, inc, rest) =>
                    .ok ⟨Function.update c i n, acc.curPos + inc, acc.cnt + inc, rest⟩)
      (fun i st => ∃ c : Fin a → Node a E ℕ T,
        st = .ok (⟨c, L.length + k i, k i, D.drop (k i)⟩ : ExtAcc a E ℕ T) ∧
        ∀ j : Fin a, LW H (L ++ D.take (k i)) h (b + j.val * a ^ h) (c j))
      (.ok ⟨c0, L.length, 0, D⟩)
      (by
        have : k s = 0 := by simp only [hk]; omega
        rw [this]
        exact ⟨c0, by simp, by simpa using hc0⟩)
      (by
        rintro i hi st ⟨c, rfl, hcl⟩
        simp only
        have hi1 : (i.val + 1) * a ^ h = i.val * a ^ h + a ^ h := by ring
        have hsi : s * a ^ h ≤ i.val * a ^ h := Nat.mul_le_mul_right _ hi
        by_cases hemp : D.length ≤ k i
        · have e1 : D.drop (k i) = [] := List.drop_of_length_le hemp
          have e2 : k (i.val + 1) = D.length := by
            simp only [hk] at hemp ⊢; rw [hi1]; omega
          have e3 : k i.val = D.length := by simp only [hk] at hemp ⊢; omega
          refine ⟨c, ?_, ?_⟩
          · rw [e1, e2, e3]; simp
          · rw [e3] at hcl; rw [e2]; exact hcl
        · have hki : k i.val = b + i.val * a ^ h - L.length := by
            simp only [hk] at hemp ⊢; omega
          have hne : (D.drop (k i)).isEmpty = false := by
            rw [List.isEmpty_eq_false_iff]
            intro hx
            rw [List.drop_eq_nil_iff] at hx
            omega
          rw [hne]
          simp only [Bool.false_eq_true, if_false]
          have hlenk : (L ++ D.take (k i)).length = L.length + k i := by simp; omega
          have hfr : Front (fr && i.val == s) path h (b + i.val * a ^ h) (L ++ D.take (k i)).length := by
            by_cases his : i.val = s
            · have : k i.val = 0 := by rw [hki, his]; omega
              rw [his] at this ⊢
              simpa [this] using hfs
            · have : (i.val == s) = false := by simpa using his
              rw [this, Bool.and_false]
              apply hfi i.val (by omega) i.isLt
              have : (s + 1) * a ^ h ≤ i.val * a ^ h := Nat.mul_le_mul_right _ (by omega)
              rw [Nat.add_mul, Nat.one_mul] at this
              rw [hlenk]; omega
          have hci : forgetPrev H c i i = c i := by
            unfold forgetPrev
            rw [if_neg]; omega
          obtain ⟨n', hrec, hlw⟩ := ih (b + i.val * a ^ h) (L ++ D.take (k i)) (D.drop (k i)) _ (c i) hfr
            (hcl i)
          rw [hlenk] at hrec hlw
          rw [hci, hrec]
          simp only
          have hbi := hfr.bounds
          rw [hlenk] at hbi
          set r := b + i.val * a ^ h + a ^ h - (L.length + k i.val) with hr
          have hkr : k (i.val + 1) = k i.val + min (D.length - k i.val) r := by
            simp only [hk] at hemp ⊢; rw [hi1]; omega
          have htake : L ++ D.take (k i.val) ++ (D.drop (k i.val)).take r =
              L ++ D.take (k (i.val + 1)) := by
            rw [List.append_assoc, ← List.take_add, hkr]
            congr 1
            by_cases hx : D.length - k i.val ≤ r
            · rw [List.take_of_length_le (by omega), List.take_of_length_le (by omega)]
            · congr 1; omega
          rw [htake] at hlw
          have hlen2 : (L ++ D.take (k (i.val + 1))).length = L.length + k (i.val + 1) := by
            simp only [List.length_append, List.length_take]; rw [hkr]; omega
          refine ⟨Function.update (forgetPrev H c i) i n', ?_, ?_⟩
          · rw [List.drop_drop, List.length_drop, hkr]
            congr 2
            · omega
            · by_cases hx : D.length - k i.val ≤ r
              · rw [List.drop_of_length_le (by omega), List.drop_of_length_le (by omega)]
              · congr 1; omega
          · intro j
            by_cases hji : j = i
            · subst hji; rw [Function.update_self]; exact hlw
            · rw [Function.update_of_ne hji]
              have hjv : j.val ≠ i.val := fun h => hji (Fin.ext h)
              rcases Nat.lt_or_gt_of_ne hjv with hlt | hgt
              · have : (j.val + 1) * a ^ h ≤ i.val * a ^ h := Nat.mul_le_mul_right _ hlt
                rw [Nat.add_mul, Nat.one_mul] at this
                have hbb : b + j.val * a ^ h + a ^ h < (L ++ D.take (k (i.val + 1))).length := by
                  rw [hlen2]; omega
                have hm := LW.mono H (L ++ D.take (k i.val)) (L ++ D.take (k (i.val + 1))) h
                  (b + j.val * a ^ h) (c j)
                  (fun x hx => by rw [← htake, List.getElem?_append_left hx])
                  (by rw [hlenk]; omega) hbb (hcl j)
                unfold forgetPrev
                split
                · exact LW.of_pruned H _ _ _ _ hbb hm.pruned.forget
                · exact hm
              · have : (i.val + 1) * a ^ h ≤ j.val * a ^ h := Nat.mul_le_mul_right _ hgt
                rw [Nat.add_mul, Nat.one_mul] at this
                have hcj : forgetPrev H c i j = c j := by
                  unfold forgetPrev
                  rw [if_neg]; omega
                rw [hcj]
                have hold := hcl j
                rw [LW.empty H _ _ _ _ (by rw [hlenk]; omega)] at hold
                rw [LW.empty H _ _ _ _ (by rw [hlen2, hkr]; omega)]
                exact hold)
    obtain ⟨cf, hst, hcf⟩ := hloop
    have hka : k a = min D.length (b + a ^ (h + 1) - L.length) := by
      simp only [hk]; rw [pow_succ, Nat.mul_comm (a ^ h) a]
    have hmain : extendAndForgetInternal H (h + 1) nd L.length path fr D =
        .ok (mkBranch H cf, k a, D.drop (k a)) := by
      unfold extendAndForgetInternal
      have hDe : D.isEmpty = false := by rw [List.isEmpty_eq_false_iff]; exact hD
      rw [hDe]
      simp only [Bool.false_eq_true, if_false]
      rcases hnd with ⟨rfl, -⟩ | ⟨v, c, rfl, -⟩
      · simp only [hstart] at hC ⊢
        rw [hC]
        exact congrArg (fun st : Except MErr (ExtAcc a E ℕ T) => match st with
          | .error e => Except.error e
          | .ok acc => .ok (mkBranch H acc.children, acc.cnt, acc.data)) hst
      · simp only [hstart] at hC ⊢
        rw [hC]
        exact congrArg (fun st : Except MErr (ExtAcc a E ℕ T) => match st with
          | .error e => Except.error e
          | .ok acc => .ok (mkBranch H acc.children, acc.cnt, acc.data)) hst
    have ht : D.take (k a) = D.take (b + a ^ (h + 1) - L.length) := by
      rw [hka]
      by_cases hx : D.length ≤ b + a ^ (h + 1) - L.length
      · rw [List.take_of_length_le (by omega), List.take_of_length_le (by omega)]
      · congr 1; omega
    have hd : D.drop (k a) = D.drop (b + a ^ (h + 1) - L.length) := by
      rw [hka]
      by_cases hx : D.length ≤ b + a ^ (h + 1) - L.length
      · rw [List.drop_of_length_le (by omega), List.drop_of_length_le (by omega)]
      · congr 1; omega
    refine ⟨mkBranch H cf, ?_, ?_⟩
    · rw [hmain, ← hd, ← hka]
    · rw [← ht]
      simp only [LW]
      have hlf : (L ++ D.take (k a)).length = L.length + k a := by
        simp only [List.length_append, List.length_take]; rw [hka]; omega
      rw [if_neg (by rw [hlf, hka]; omega), if_neg (by rw [hlf, hka]; omega)]
      exact ⟨cf, rfl, hcf⟩

/-- A full (possibly pruned) subtree rejects every extension. -/
theorem extendLight_full [NeZero a] (H : Hasher E ℕ T) (path : List (Fin a)) :
    ∀ (h b pos : ℕ) (L D : List E) (fr : Bool) (nd : Node a E ℕ T), b + a ^ h ≤ L.length →
    (fr = true → ∀ k, k < h → path[k]? = some 0) → D ≠ [] → Pruned H nd (seqTree H L h b) →
    ∃ e, extendAndForgetInternal H h nd pos path fr D = .error e := by
  intro h
  induction h with
  | zero =>
    intro b pos L D fr nd hb hp hD hpr
    unfold extendAndForgetInternal
    have hDe : D.isEmpty = false := by rw [List.isEmpty_eq_false_iff]; exact hD
    simp at hb
    rw [seqTree_leaf H L b (L[b]'(by omega)) (List.getElem?_eq_getElem _)] at hpr
    rw [hDe]
    cases hpr <;> simp [mkLeaf]
  | succ h ih =>
    intro b pos L D fr nd hb hp hD hpr
    have ha : 0 < a := Nat.pos_of_ne_zero (NeZero.ne a)
    have hA := pow_pos' (a := a) h
    have hAA : a ^ h ≤ a ^ (h + 1) := Nat.pow_le_pow_right ha (by omega)
    have hDe : D.isEmpty = false := by rw [List.isEmpty_eq_false_iff]; exact hD
    rw [seqTree_branch H L h b (by have := pow_pos' (a := a) (h + 1); omega)] at hpr
    have key : ∀ v (c : Fin a → Node a E ℕ T), Pruned H (c ⟨0, ha⟩) (seqTree H L h b) →
        ∃ e, extendAndForgetInternal H (h + 1) (.branch v c) pos path fr D = .error e := by
      intro v c hc
      have hst : (if fr = true then Option.map Fin.val path[h]? else some 0) = some 0 := by
        cases fr
        · rfl
        · simp [hp rfl h (by omega)]
      have hfr : ((List.finRange a).filter fun i => 0 ≤ i.val) =
          ⟨0, ha⟩ :: (List.finRange a).drop 1 := by
        rw [filter_finRange_eq_drop, List.drop_eq_getElem_cons (by simpa using ha)]
        simp
      have hprev : forgetPrev H c ⟨0, ha⟩ ⟨0, ha⟩ = c ⟨0, ha⟩ := by simp [forgetPrev]
      obtain ⟨e, he⟩ := ih b pos L D (fr && (0 : ℕ) == 0) (c ⟨0, ha⟩) (by omega)
        (by intro hfr' k hk
            simp only [Bool.and_eq_true] at hfr'
            exact hp hfr'.1 k (by omega)) hD hc
      refine ⟨e, ?_⟩
      unfold extendAndForgetInternal
      rw [hDe]
      simp only [Bool.false_eq_true, if_false, hst]
      rw [hfr, List.foldl_cons]
      simp only [hDe, Bool.false_eq_true, if_false, hprev, he]
      have : ∀ (l : List (Fin a)) (f : Except MErr (ExtAcc a E ℕ T) → Fin a → Except MErr (ExtAcc a E ℕ T)),
          (∀ e i, f (.error e) i = .error e) → ∀ e, l.foldl f (.error e) = .error e := by
        intro l f hf e
        induction l with
        | nil => rfl
        | cons x l ih => rw [List.foldl_cons, hf, ih]
      rw [this]
      intro e i; rfl
    cases hpr with
    | refl => exact key _ _ (by simpa using Pruned.refl _)
    | forgotten =>
      refine ⟨.forgottenLeaf, ?_⟩
      unfold extendAndForgetInternal
      rw [hDe]; simp
    | branch v c c' hc => exact key _ _ (by simpa using hc ⟨0, ha⟩)

/-! ## `build_light_weight_tree_internal` -/

/-- Nodes of level `k` of the light-weight construction. -/
def IsLightLevel (H : Hasher E ℕ T) (L : List E) (k : ℕ) (nodes : List (Node a E ℕ T)) : Prop :=
  ∀ j, if j * a ^ k < L.length then ∃ n, nodes[j]? = some n ∧ LW H L k (j * a ^ k) n
    else nodes[j]? = none

theorem lightLevel_group [NeZero a] (H : Hasher E ℕ T) (L : List E) (k : ℕ)
    (nodes : List (Node a E ℕ T)) (hl : IsLightLevel H L k nodes) :
    IsLightLevel H L (k + 1) (forgetInner H (groupLevel H nodes)) := by
  have ha : 0 < a := Nat.pos_of_ne_zero (NeZero.ne a)
  have hA := pow_pos' (a := a) k
  have hlen := isLevel_length (a := a) k L.length nodes (fun j => by
    have := hl j
    split at this
    · obtain ⟨n, hn, -⟩ := this; simp [*]
    · simp [*])
  have hpow : ∀ j, j * a * a ^ k = j * a ^ (k + 1) := by intro j; rw [pow_succ]; ring
  have hg : IsLightLevel H L (k + 1) (groupLevel H nodes) := by
    intro j
    unfold groupLevel
    rw [List.getElem?_map, chunks_getElem? a ha]
    by_cases hj : j * a < nodes.length
    · have hj' : j * a ^ (k + 1) < L.length := by rw [← hpow]; exact (hlen _).mp hj
      rw [if_pos hj', if_pos hj, Option.map_some]
      refine ⟨_, rfl, ?_⟩
      have hch : ∀ i : Fin a, LW H L k (j * a ^ (k + 1) + i.val * a ^ k)
          (padChildren a ((nodes.drop (j * a)).take a) i) := by
        intro i
        unfold padChildren
        rw [List.getD_eq_getElem?_getD, List.getElem?_take, if_pos i.isLt, List.getElem?_drop]
        have he : (j * a + i.val) * a ^ k = j * a ^ (k + 1) + i.val * a ^ k := by rw [Nat.add_mul, hpow]
        have hx := hl (j * a + i.val)
        rw [he] at hx
        split at hx
        · obtain ⟨n, hn, hlw⟩ := hx
          rw [hn]; exact hlw
        · rw [hx, LW.empty H L _ _ _ (by omega)]; rfl
      by_cases hfull : j * a ^ (k + 1) + a ^ (k + 1) < L.length
      · apply LW.of_pruned H L _ _ _ hfull
        rw [seqTree_branch H L k _ hj']
        unfold mkBranch
        rw [digestBranch_congr H _ _ fun i => (hch i).pruned.value_eq]
        exact .branch _ _ _ fun i => (hch i).pruned
      · simp only [LW]
        rw [if_neg (by omega), if_neg hfull]
        exact ⟨_, rfl, hch⟩
    · have hj' : ¬ j * a ^ (k + 1) < L.length := by rw [← hpow]; exact fun h => hj ((hlen _).mpr h)
      rw [if_neg hj', if_neg hj]; rfl
  have hlen2 := isLevel_length (a := a) (k + 1) L.length (groupLevel H nodes) (fun j => by
    have := hg j
    split at this
    · obtain ⟨n, hn, -⟩ := this; simp [*]
    · simp [*])
  intro j
  have hj := hg j
  unfold forgetInner
  rw [List.getElem?_mapIdx]
  split
  · rename_i hlt
    rw [if_pos hlt] at hj
    obtain ⟨n, hn, hlw⟩ := hj
    rw [hn, Option.map_some]
    refine ⟨_, rfl, ?_⟩
    split
    · rename_i hin
      have : (j + 1) * a ^ (k + 1) < L.length := (hlen2 (j + 1)).mp (by omega)
      rw [Nat.add_mul, Nat.one_mul] at this
      exact LW.of_pruned H L _ _ _ this hlw.pruned.forget
    · exact hlw
  · rename_i hlt
    rw [if_neg hlt] at hj
    rw [hj]; rfl

theorem lightLevel_leaves [NeZero a] (H : Hasher E ℕ T) (L : List E) :
    IsLightLevel H L 0 (L.zipIdx.map fun (e, i) =>
      if i < L.length - 1 then (.forgotten (H.digestLeaf i e) : Node a E ℕ T) else mkLeaf H i e) := by
  intro j
  simp only [pow_zero, Nat.mul_one, List.getElem?_map, List.getElem?_zipIdx, Nat.zero_add]
  split
  · rename_i hj
    rw [List.getElem?_eq_getElem hj]
    refine ⟨_, rfl, ?_⟩
    simp only [LW]
    rw [seqTree_leaf H L j L[j] (List.getElem?_eq_getElem hj)]
    split
    · rw [if_pos (by omega)]
      exact Pruned.forgotten (mkLeaf H j L[j])
    · rw [if_neg (by omega)]
  · rename_i hj
    rw [List.getElem?_eq_none (by omega)]; rfl

theorem lightLevel_iter [NeZero a] (H : Hasher E ℕ T) (L : List E) (k : ℕ) :
    IsLightLevel H L k ((fun ns => forgetInner H (groupLevel H ns))^[k] (L.zipIdx.map fun (e, i) =>
      if i < L.length - 1 then (.forgotten (H.digestLeaf i e) : Node a E ℕ T) else mkLeaf H i e)) := by
  induction k with
  | zero => exact lightLevel_leaves H L
  | succ k ih => rw [Function.iterate_succ_apply']; exact lightLevel_group H L k _ ih

theorem buildLight_spec [NeZero a] (H : Hasher E ℕ T) (ho : Option ℕ) (h : ℕ) (L : List E)
    (hc : chooseHeight a ho L.length = .ok h) (hcap : a ^ h < 2 ^ 64) (hle : L.length ≤ a ^ h) :
    ∃ n, buildLightWeightTree a H ho L = .ok (n, h, L.length) ∧ LW H L h 0 n := by
  unfold buildLightWeightTree
  simp only [hc, bind, Except.bind]
  rw [if_neg (by omega), if_neg (by omega)]
  by_cases h0 : L.length = 0
  · rw [if_pos h0, h0]
    exact ⟨_, rfl, by rw [LW.empty H L _ _ _ (by omega)]⟩
  · rw [if_neg h0]
    cases h with
    | zero =>
      cases L with
      | nil => simp at h0
      | cons e L =>
        simp only [pow_zero] at hle
        have : (e :: L).length = 1 := by simp at hle ⊢; exact hle
        rw [this]
        refine ⟨_, rfl, ?_⟩
        simp only [LW]
        rw [if_neg (by omega), seqTree_leaf H _ 0 e (by simp)]
    | succ h =>
      have hlev := lightLevel_iter (a := a) H L (h + 1) 0
      rw [Nat.zero_mul, if_pos (by omega)] at hlev
      obtain ⟨n, hn, hlw⟩ := hlev
      simp only
      generalize ((fun ns => forgetInner H (groupLevel H ns))^[h + 1] (L.zipIdx.map fun (e, i) =>
        if i < L.length - 1 then (.forgotten (H.digestLeaf i e) : Node a E ℕ T) else mkLeaf H i e)) =
        ls at hn
      cases ls with
      | nil => simp at hn
      | cons l ls =>
        simp only [List.getElem?_cons_zero, Option.some.injEq] at hn
        rw [hn]
        exact ⟨n, rfl, hlw⟩

end Verif.Merkle
