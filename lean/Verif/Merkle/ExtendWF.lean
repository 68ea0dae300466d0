import Verif.Merkle.Light

/-! # Extending arbitrary well-formed (partially forgotten) trees keeps them well formed -/

namespace Verif.Merkle

variable {a : ℕ} {E I T : Type}

theorem extend_wf [NeZero a] (H : Hasher E ℕ T) (path : List (Fin a)) : ∀ (h : ℕ) (pre : List (Fin a))
    (b pos : ℕ) (D : List E) (fr : Bool) (nd nd' : Node a E ℕ T) (cnt : ℕ) (rest : List E),
    WF H id h pre nd → Base h pre b → Front fr path h b pos →
    extendInternal H h nd pos path fr D = .ok (nd', cnt, rest) →
    WF H id h pre nd' ∧ cnt = min D.length (b + a ^ h - pos) ∧ rest = D.drop (b + a ^ h - pos) := by
  intro h
  induction h with
  | zero =>
    intro pre b pos D fr nd nd' cnt rest hwf hB hf he
    have hb := hf.bounds
    simp only [pow_zero] at hb
    have hbn : b = pos := by omega
    subst hbn
    unfold extendInternal at he
    cases D with
    | nil => simp at he; obtain ⟨rfl, rfl, rfl⟩ := he; exact ⟨hwf, by simp, by simp⟩
    | cons e D =>
      cases nd with
      | leaf v p e => simp at he
      | forgotten v => simp at he
      | branch v c => simp at he
      | empty =>
        simp at he
        obtain ⟨rfl, rfl, rfl⟩ := he
        refine ⟨⟨rfl, hB.zero⟩, by simp, by simp⟩
  | succ h ih =>
    intro pre b pos D fr nd nd' cnt rest hwf hB hf he
    by_cases hD : D = []
    · subst hD
      unfold extendInternal at he
      simp at he
      obtain ⟨rfl, rfl, rfl⟩ := he
      exact ⟨hwf, by simp, by simp⟩
    obtain ⟨s, hs, hstart, hs1, hs2, hfs, hfi⟩ := hf.start
    have hA := pow_pos' (a := a) h
    set k : ℕ → ℕ := fun i => min D.length (b + i * a ^ h - pos) with hk
    have hDe : D.isEmpty = false := by rw [List.isEmpty_eq_false_iff]; exact hD
    have hloop := fun c0 : Fin a → Node a E ℕ T => foldl_from (a := a) s hs.le
      (fun (st : Except MErr (ExtAcc a E ℕ T)) i =>
              match st with
              | .error e => .error e
              | .ok acc =>
                if acc.data.isEmpty then .ok acc
                else
                  match extendInternal H h (acc.children i) acc.curPos path
                      (fr && i.val == s) acc.data with
                  | .error e => .error e
                  | .ok (n, inc, rest) =>
                    .ok ⟨Function.update acc.children i n, acc.curPos + inc, acc.cnt + inc, rest⟩)
      (fun i st => ∀ acc, st = .ok acc → acc.curPos = pos + k i ∧ acc.cnt = k i ∧
        acc.data = D.drop (k i) ∧ ∀ j : Fin a, WF H id h (j :: pre) (acc.children j))
      (.ok ⟨c0, pos, 0, D⟩)
    have hfin : ∀ c0 : Fin a → Node a E ℕ T, (∀ j, WF H id h (j :: pre) (c0 j)) → _ := fun c0 hc0 =>
      hloop c0
      (by
        intro acc hacc
        simp only [Except.ok.injEq] at hacc
        subst hacc
        have : k s = 0 := by simp only [hk]; omega
        rw [this]
        exact ⟨rfl, rfl, by simp, hc0⟩)
      (by
        intro i hi st hst acc' hacc'
        have hi1 : (i.val + 1) * a ^ h = i.val * a ^ h + a ^ h := by ring
        have hsi : s * a ^ h ≤ i.val * a ^ h := Nat.mul_le_mul_right _ hi
        cases st with
        | error e => simp at hacc'
        | ok acc =>
          obtain ⟨q1, q2, q3, q4⟩ := hst acc rfl
          simp only at hacc'
          by_cases hemp : D.length ≤ k i
          · have e1 : D.drop (k i) = [] := List.drop_of_length_le hemp
            have e2 : k (i.val + 1) = D.length := by
              simp only [hk] at hemp ⊢; rw [hi1]; omega
            have e3 : k i.val = D.length := by simp only [hk] at hemp ⊢; omega
            rw [q3, e1] at hacc'
            simp at hacc'
            subst hacc'
            rw [e2]
            rw [e3] at q1 q2 q3
            exact ⟨q1, q2, q3, q4⟩
          · have hki : k i.val = b + i.val * a ^ h - pos := by
              simp only [hk] at hemp ⊢; omega
            have hne : acc.data.isEmpty = false := by
              rw [q3, List.isEmpty_eq_false_iff]
              intro hx
              rw [List.drop_eq_nil_iff] at hx
              omega
            rw [hne] at hacc'
            simp only [Bool.false_eq_true, if_false] at hacc'
            have hfr : Front (fr && i.val == s) path h (b + i.val * a ^ h) (pos + k i) := by
              by_cases his : i.val = s
              · have : k i.val = 0 := by rw [hki, his]; omega
                rw [this, his]
                simpa using hfs
              · have : (i.val == s) = false := by simpa using his
                rw [this, Bool.and_false]
                apply hfi i.val (by omega) i.isLt
                have : (s + 1) * a ^ h ≤ i.val * a ^ h := Nat.mul_le_mul_right _ (by omega)
                rw [Nat.add_mul, Nat.one_mul] at this
                omega
            split at hacc'
            · simp at hacc'
            · rename_i n inc rst heq
              simp only [Except.ok.injEq] at hacc'
              subst hacc'
              rw [q1] at heq
              have hwc : ∀ j : Fin a, WF H id h (j :: pre) (acc.children j) := by
                intro j
                exact q4 j
              obtain ⟨w1, w2, w3⟩ := ih (i :: pre) (b + i.val * a ^ h) _ _ _ _ _ _ _ (hwc i)
                (hB.child i) hfr heq
              have hbi := hfr.bounds
              rw [q3] at w2 w3
              set r := b + i.val * a ^ h + a ^ h - (pos + k i.val) with hr
              have hkr : k (i.val + 1) = k i.val + min (D.length - k i.val) r := by
                simp only [hk] at hemp ⊢; rw [hi1]; omega
              rw [List.length_drop] at w2
              refine ⟨?_, ?_, ?_, ?_⟩
              · simp only; rw [q1, w2, hkr]; omega
              · simp only; rw [q2, w2, hkr]
              · simp only
                rw [w3, List.drop_drop, hkr]
                by_cases hx : D.length - k i.val ≤ r
                · rw [List.drop_of_length_le (by omega), List.drop_of_length_le (by omega)]
                · congr 1; omega
              · intro j
                by_cases hji : j = i
                · subst hji; simp only [Function.update_self]; exact w1
                · simp only [Function.update_of_ne hji]; exact hwc j)
    have hka : k a = min D.length (b + a ^ (h + 1) - pos) := by
      simp only [hk]; rw [pow_succ, Nat.mul_comm (a ^ h) a]
    have hd : D.drop (k a) = D.drop (b + a ^ (h + 1) - pos) := by
      rw [hka]
      by_cases hx : D.length ≤ b + a ^ (h + 1) - pos
      · rw [List.drop_of_length_le (by omega), List.drop_of_length_le (by omega)]
      · congr 1; omega
    unfold extendInternal at he
    rw [hDe] at he
    simp only [Bool.false_eq_true, if_false] at he
    cases nd with
    | leaf v p e => simp [WF] at hwf
    | forgotten v => simp at he
    | empty =>
      simp only [hstart] at he
      have hx := hfin (fun _ => .empty) (fun j => by cases h <;> trivial)
      split at he
      · simp at he
      · rename_i acc hacc
        simp only [Except.ok.injEq, Prod.mk.injEq] at he
        obtain ⟨rfl, rfl, rfl⟩ := he
        obtain ⟨q1, q2, q3, q4⟩ := hx acc hacc
        exact ⟨⟨rfl, q4⟩, by rw [q2, hka], by rw [q3, hd]⟩
    | branch v c =>
      simp only [hstart] at he
      have hx := hfin c hwf.2
      split at he
      · simp at he
      · rename_i acc hacc
        simp only [Except.ok.injEq, Prod.mk.injEq] at he
        obtain ⟨rfl, rfl, rfl⟩ := he
        obtain ⟨q1, q2, q3, q4⟩ := hx acc hacc
        exact ⟨⟨rfl, q4⟩, by rw [q2, hka], by rw [q3, hd]⟩

theorem extendLight_wf [NeZero a] (H : Hasher E ℕ T) (path : List (Fin a)) : ∀ (h : ℕ) (pre : List (Fin a))
    (b pos : ℕ) (D : List E) (fr : Bool) (nd nd' : Node a E ℕ T) (cnt : ℕ) (rest : List E),
    WF H id h pre nd → Base h pre b → Front fr path h b pos →
    extendAndForgetInternal H h nd pos path fr D = .ok (nd', cnt, rest) →
    WF H id h pre nd' ∧ cnt = min D.length (b + a ^ h - pos) ∧ rest = D.drop (b + a ^ h - pos) := by
  intro h
  induction h with
  | zero =>
    intro pre b pos D fr nd nd' cnt rest hwf hB hf he
    have hb := hf.bounds
    simp only [pow_zero] at hb
    have hbn : b = pos := by omega
    subst hbn
    unfold extendAndForgetInternal at he
    cases D with
    | nil => simp at he; obtain ⟨rfl, rfl, rfl⟩ := he; exact ⟨hwf, by simp, by simp⟩
    | cons e D =>
      cases nd with
      | leaf v p e => simp at he
      | forgotten v => simp at he
      | branch v c => simp at he
      | empty =>
        simp at he
        obtain ⟨rfl, rfl, rfl⟩ := he
        refine ⟨⟨rfl, hB.zero⟩, by simp, by simp⟩
  | succ h ih =>
    intro pre b pos D fr nd nd' cnt rest hwf hB hf he
    by_cases hD : D = []
    · subst hD
      unfold extendAndForgetInternal at he
      simp at he
      obtain ⟨rfl, rfl, rfl⟩ := he
      exact ⟨hwf, by simp, by simp⟩
    obtain ⟨s, hs, hstart, hs1, hs2, hfs, hfi⟩ := hf.start
    have hA := pow_pos' (a := a) h
    set k : ℕ → ℕ := fun i => min D.length (b + i * a ^ h - pos) with hk
    have hDe : D.isEmpty = false := by rw [List.isEmpty_eq_false_iff]; exact hD
    have hloop := fun c0 : Fin a → Node a E ℕ T => foldl_from (a := a) s hs.le
      (fun (st : Except MErr (ExtAcc a E ℕ T)) i =>
              match st with
              | .error e => .error e
              | .ok acc =>
                if acc.data.isEmpty then .ok acc
                else
                  let c := forgetPrev H acc.children i
                  match extendAndForgetInternal H h (c i) acc.curPos path
                      (fr && i.val == s) acc.data with
                  | .error e => .error e
                  | .ok (n, inc, rest) =>
                    .ok ⟨Function.update c i n, acc.curPos + inc, acc.cnt + inc, rest⟩)
      (fun i st => ∀ acc, st = .ok acc → acc.curPos = pos + k i ∧ acc.cnt = k i ∧
        acc.data = D.drop (k i) ∧ ∀ j : Fin a, WF H id h (j :: pre) (acc.children j))
      (.ok ⟨c0, pos, 0, D⟩)
    have hfin : ∀ c0 : Fin a → Node a E ℕ T, (∀ j, WF H id h (j :: pre) (c0 j)) → _ := fun c0 hc0 =>
      hloop c0
      (by
        intro acc hacc
        simp only [Except.ok.injEq] at hacc
        subst hacc
        have : k s = 0 := by simp only [hk]; omega
        rw [this]
        exact ⟨rfl, rfl, by simp, hc0⟩)
      (by
        intro i hi st hst acc' hacc'
        have hi1 : (i.val + 1) * a ^ h = i.val * a ^ h + a ^ h := by ring
        have hsi : s * a ^ h ≤ i.val * a ^ h := Nat.mul_le_mul_right _ hi
        cases st with
        | error e => simp at hacc'
        | ok acc =>
          obtain ⟨q1, q2, q3, q4⟩ := hst acc rfl
          simp only at hacc'
          by_cases hemp : D.length ≤ k i
          · have e1 : D.drop (k i) = [] := List.drop_of_length_le hemp
            have e2 : k (i.val + 1) = D.length := by
              simp only [hk] at hemp ⊢; rw [hi1]; omega
            have e3 : k i.val = D.length := by simp only [hk] at hemp ⊢; omega
            rw [q3, e1] at hacc'
            simp at hacc'
            subst hacc'
            rw [e2]
            rw [e3] at q1 q2 q3
            exact ⟨q1, q2, q3, q4⟩
          · have hki : k i.val = b + i.val * a ^ h - pos := by
              simp only [hk] at hemp ⊢; omega
            have hne : acc.data.isEmpty = false := by
              rw [q3, List.isEmpty_eq_false_iff]
              intro hx
              rw [List.drop_eq_nil_iff] at hx
              omega
            rw [hne] at hacc'
            simp only [Bool.false_eq_true, if_false] at hacc'
            have hfr : Front (fr && i.val == s) path h (b + i.val * a ^ h) (pos + k i) := by
              by_cases his : i.val = s
              · have : k i.val = 0 := by rw [hki, his]; omega
                rw [this, his]
                simpa using hfs
              · have : (i.val == s) = false := by simpa using his
                rw [this, Bool.and_false]
                apply hfi i.val (by omega) i.isLt
                have : (s + 1) * a ^ h ≤ i.val * a ^ h := Nat.mul_le_mul_right _ (by omega)
                rw [Nat.add_mul, Nat.one_mul] at this
                omega
            split at hacc'
            · simp at hacc'
            · rename_i n inc rst heq
              simp only [Except.ok.injEq] at hacc'
              subst hacc'
              rw [q1] at heq
              have hwc : ∀ j : Fin a, WF H id h (j :: pre) (forgetPrev H acc.children i j) := by
                intro j
                unfold forgetPrev
                split
                · cases h <;> trivial
                · exact q4 j
              obtain ⟨w1, w2, w3⟩ := ih (i :: pre) (b + i.val * a ^ h) _ _ _ _ _ _ _ (hwc i)
                (hB.child i) hfr heq
              have hbi := hfr.bounds
              rw [q3] at w2 w3
              set r := b + i.val * a ^ h + a ^ h - (pos + k i.val) with hr
              have hkr : k (i.val + 1) = k i.val + min (D.length - k i.val) r := by
                simp only [hk] at hemp ⊢; rw [hi1]; omega
              rw [List.length_drop] at w2
              refine ⟨?_, ?_, ?_, ?_⟩
              · simp only; rw [q1, w2, hkr]; omega
              · simp only; rw [q2, w2, hkr]
              · simp only
                rw [w3, List.drop_drop, hkr]
                by_cases hx : D.length - k i.val ≤ r
                · rw [List.drop_of_length_le (by omega), List.drop_of_length_le (by omega)]
                · congr 1; omega
              · intro j
                by_cases hji : j = i
                · subst hji; simp only [Function.update_self]; exact w1
                · simp only [Function.update_of_ne hji]; exact hwc j)
    have hka : k a = min D.length (b + a ^ (h + 1) - pos) := by
      simp only [hk]; rw [pow_succ, Nat.mul_comm (a ^ h) a]
    have hd : D.drop (k a) = D.drop (b + a ^ (h + 1) - pos) := by
      rw [hka]
      by_cases hx : D.length ≤ b + a ^ (h + 1) - pos
      · rw [List.drop_of_length_le (by omega), List.drop_of_length_le (by omega)]
      · congr 1; omega
    unfold extendAndForgetInternal at he
    rw [hDe] at he
    simp only [Bool.false_eq_true, if_false] at he
    cases nd with
    | leaf v p e => simp [WF] at hwf
    | forgotten v => simp at he
    | empty =>
      simp only [hstart] at he
      have hx := hfin (fun _ => .empty) (fun j => by cases h <;> trivial)
      split at he
      · simp at he
      · rename_i acc hacc
        simp only [Except.ok.injEq, Prod.mk.injEq] at he
        obtain ⟨rfl, rfl, rfl⟩ := he
        obtain ⟨q1, q2, q3, q4⟩ := hx acc hacc
        exact ⟨⟨rfl, q4⟩, by rw [q2, hka], by rw [q3, hd]⟩
    | branch v c =>
      simp only [hstart] at he
      have hx := hfin c hwf.2
      split at he
      · simp at he
      · rename_i acc hacc
        simp only [Except.ok.injEq, Prod.mk.injEq] at he
        obtain ⟨rfl, rfl, rfl⟩ := he
        obtain ⟨q1, q2, q3, q4⟩ := hx acc hacc
        exact ⟨⟨rfl, q4⟩, by rw [q2, hka], by rw [q3, hd]⟩

end Verif.Merkle
