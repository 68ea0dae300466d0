import Verif.Merkle.Canon

/-! # update / forget / remember on well-formed trees with forgotten parts -/

namespace Verif.Merkle

variable {a : ℕ} {E I T : Type}

theorem through_child {h : ℕ} {pre path : List (Fin a)} {i : Fin a} (ht : Through h (i :: pre) path) :
    Through (h + 1) pre path := by
  refine ⟨by have := ht.1; simp at this; omega, ?_⟩
  have hlt : h < path.length := by have := ht.1; simp at this; omega
  have h2 := ht.2
  rw [List.drop_eq_getElem_cons hlt] at h2
  simp only [List.cons.injEq] at h2
  exact h2.2

/-! ## update -/

theorem update_wf [NeZero a] (H : Hasher E I T) (idx : I → ℕ) (pos : I) (f : Option E → Option E) :
    ∀ (h : ℕ) (pre path : List (Fin a)) (n : Node a E I T), WF H idx h pre n → Through h pre path →
      idx pos < a ^ path.length → toPath a (idx pos) path.length = path →
      ∀ n' d r, updateWithInternal H h n pos path f = .ok (n', d, r) →
        WF H idx h pre n' ∧ n'.isForgotten = false := by
  intro h
  induction h with
  | zero =>
    intro pre path n hwf ht hp1 hp2 n' d r hu
    have := ht.zero
    subst this
    cases n with
    | empty =>
      simp only [updateWithInternal] at hu
      split at hu
      · simp only [Except.ok.injEq, Prod.mk.injEq] at hu
        rw [← hu.1]
        exact ⟨⟨rfl, hp1, hp2⟩, rfl⟩
      · simp only [Except.ok.injEq, Prod.mk.injEq] at hu
        rw [← hu.1]
        exact ⟨trivial, rfl⟩
    | branch v c => simp [WF] at hwf
    | leaf v p e =>
      simp only [updateWithInternal] at hu
      simp only [WF] at hwf
      split at hu
      · simp only [Except.ok.injEq, Prod.mk.injEq] at hu
        rw [← hu.1]
        exact ⟨⟨rfl, hwf.2⟩, rfl⟩
      · simp only [Except.ok.injEq, Prod.mk.injEq] at hu
        rw [← hu.1]
        exact ⟨trivial, rfl⟩
    | forgotten v => simp [updateWithInternal] at hu
  | succ h ih =>
    intro pre path n hwf ht hp1 hp2 n' d r hu
    obtain ⟨b, hb, htb⟩ := ht.step
    cases n with
    | leaf v p e => simp [WF] at hwf
    | forgotten v => simp [updateWithInternal] at hu
    | empty =>
      simp only [updateWithInternal, hb] at hu
      cases hr : updateWithInternal H h .empty pos path f with
      | error e => rw [hr] at hu; simp at hu
      | ok x =>
        obtain ⟨n1, d1, r1⟩ := x
        rw [hr] at hu
        obtain ⟨hw, hnf⟩ := ih (b :: pre) path .empty (by cases h <;> trivial) htb hp1 hp2 n1 d1 r1 hr
        simp only at hu
        split at hu
        · simp only [Except.ok.injEq, Prod.mk.injEq] at hu
          rw [← hu.1]
          exact ⟨trivial, rfl⟩
        · simp only [Except.ok.injEq, Prod.mk.injEq] at hu
          rw [← hu.1]
          refine ⟨⟨rfl, ?_⟩, rfl⟩
          intro i
          by_cases hi : i = b
          · subst hi; simpa using hw
          · rw [Function.update_of_ne hi]; cases h <;> trivial
    | branch v c =>
      simp only [WF] at hwf
      simp only [updateWithInternal, hb] at hu
      cases hr : updateWithInternal H h (c b) pos path f with
      | error e => rw [hr] at hu; simp at hu
      | ok x =>
        obtain ⟨n1, d1, r1⟩ := x
        rw [hr] at hu
        obtain ⟨hw, hnf⟩ := ih (b :: pre) path (c b) (hwf.2 b) htb hp1 hp2 n1 d1 r1 hr
        simp only [hnf, if_false, Bool.false_eq_true] at hu
        split at hu
        · simp only [Except.ok.injEq, Prod.mk.injEq] at hu
          rw [← hu.1]
          exact ⟨trivial, rfl⟩
        · simp only [Except.ok.injEq, Prod.mk.injEq] at hu
          rw [← hu.1]
          refine ⟨⟨rfl, ?_⟩, rfl⟩
          intro i
          by_cases hi : i = b
          · subst hi; simpa using hw
          · rw [Function.update_of_ne hi]; exact hwf.2 i

/-! ## forget -/

/-- forget on a well-formed tree: it keeps the value and well-formedness; the result agrees with
lookup except that a non-membership proof may be shorter; other lookups are unchanged up to
"not in memory" turning out the same. -/
theorem forget_spec [NeZero a] (H : Hasher E I T) (idx : I → ℕ) :
    ∀ (h : ℕ) (pre path : List (Fin a)) (n : Node a E I T), WF H idx h pre n → Through h pre path →
      ∃ n' r, forgetInternal H h n path = .ok (n', r) ∧ WF H idx h pre n' ∧
        n'.value H = n.value H ∧
        (∀ e p, r = .ok e p → lookupInternal H h n path = .ok (.ok e p) ∧
          lookupInternal H h n' path = .ok .notInMemory) ∧
        (r = .notInMemory → lookupInternal H h n path = .ok .notInMemory ∧ n' = n) ∧
        (∀ p, r = .notFound p → (∃ p', lookupInternal H h n path = .ok (.notFound p')) ∧ n' = n) ∧
        (∀ path', Through h pre path' → path' ≠ path → ∀ e p,
          lookupInternal H h n path' = .ok (.ok e p) →
          lookupInternal H h n' path' = .ok (.ok e p)) := by
  intro h
  induction h with
  | zero =>
    intro pre path n hwf ht
    have := ht.zero
    subst this
    cases n with
    | empty =>
      exact ⟨.empty, .notFound [], by simp [forgetInternal], trivial, rfl, by simp, by simp,
        by simp [lookupInternal], fun _ _ _ _ _ h => h⟩
    | branch v c => simp [WF] at hwf
    | leaf v p e =>
      refine ⟨.forgotten v, .ok e [], by simp [forgetInternal], trivial, rfl, ?_, by simp, by simp, ?_⟩
      · intro e' p' h
        simp only [LookupResult.ok.injEq] at h
        obtain ⟨rfl, rfl⟩ := h
        simp [lookupInternal]
      · intro path' ht' hne
        exact absurd (ht'.zero) hne
    | forgotten v =>
      exact ⟨.forgotten v, .notInMemory, by simp [forgetInternal], trivial, rfl, by simp,
        by simp [lookupInternal], by simp, fun _ _ _ _ _ h => h⟩
  | succ h ih =>
    intro pre path n hwf ht
    cases n with
    | leaf v p e => simp [WF] at hwf
    | empty =>
      exact ⟨.empty, .notFound [], by simp [forgetInternal], trivial, rfl, by simp, by simp,
        by simp [lookupInternal], fun _ _ _ _ _ h => h⟩
    | forgotten v =>
      exact ⟨.forgotten v, .notInMemory, by simp [forgetInternal], trivial, rfl, by simp,
        by simp [lookupInternal], by simp, fun _ _ _ _ _ h => h⟩
    | branch v c =>
      simp only [WF] at hwf
      obtain ⟨hv, hc⟩ := hwf
      obtain ⟨b, hb, htb⟩ := ht.step
      obtain ⟨n1, r1, hf, hw, hval, hok, hnim, hnf, hoth⟩ := ih (b :: pre) path (c b) (hc b) htb
      cases r1 with
      | notInMemory =>
        obtain ⟨h1, h2⟩ := hnim rfl
        refine ⟨.branch v c, .notInMemory, by simp [forgetInternal, hb, hf], ⟨hv, hc⟩, rfl, by simp,
          ?_, by simp, fun _ _ _ _ _ h => h⟩
        intro _
        simp [lookupInternal, hb, h1]
      | notFound p =>
        obtain ⟨⟨p', h1⟩, h2⟩ := hnf p rfl
        refine ⟨.branch v c, .notFound (p ++ [siblings H c b]), by simp [forgetInternal, hb, hf],
          ⟨hv, hc⟩, rfl, by simp, by simp, ?_, fun _ _ _ _ _ h => h⟩
        intro _ _
        simp [lookupInternal, hb, h1]
      | ok e p =>
        obtain ⟨h1, h2⟩ := hok e p rfl
        have hvals : digestBranch H (Function.update c b n1) = digestBranch H c := by
          unfold digestBranch
          congr 2
          funext i
          by_cases hi : i = b
          · subst hi; simp [hval]
          · rw [Function.update_of_ne hi]
        have hsib : ∀ b', siblings H (Function.update c b n1) b' = siblings H c b' := by
          intro b'
          unfold siblings
          apply List.map_congr_left
          intro i _
          by_cases hi : i = b
          · subst hi; simp [hval]
          · rw [Function.update_of_ne hi]
        by_cases hall : ((List.finRange a).all fun i =>
            (Function.update c b n1 i).isEmpty || (Function.update c b n1 i).isForgotten) = true
        · refine ⟨.forgotten v, .ok e (p ++ [siblings H c b]), ?_, trivial, rfl, ?_, by simp, by simp, ?_⟩
          · simp only [forgetInternal, hb, hf, hall, if_true]
          · intro e' p' heq
            simp only [LookupResult.ok.injEq] at heq
            obtain ⟨rfl, rfl⟩ := heq
            simp [lookupInternal, hb, h1]
          · intro path' ht' hne e' p' hl
            exfalso
            obtain ⟨b', hb', htb'⟩ := ht'.step
            rw [List.all_eq_true] at hall
            have hx := hall b' (List.mem_finRange b')
            simp only [lookupInternal, hb'] at hl
            by_cases hbb : b' = b
            · subst hbb
              cases hl' : lookupInternal H h (c b') path' with
              | error e => rw [hl'] at hl; simp at hl
              | ok x =>
                rw [hl'] at hl
                cases x with
                | notInMemory => simp at hl
                | notFound p => simp at hl
                | ok e2 p2 =>
                  have := hoth path' htb' hne e2 p2 hl'
                  rw [Function.update_self] at hx
                  cases n1 <;> simp [Node.isEmpty, Node.isForgotten, lookupInternal] at hx this
            · rw [Function.update_of_ne hbb] at hx
              cases hcb : c b' <;> rw [hcb] at hx hl <;>
                simp [Node.isEmpty, Node.isForgotten, lookupInternal] at hx hl
        · refine ⟨.branch v (Function.update c b n1), .ok e (p ++ [siblings H c b]), ?_, ⟨?_, ?_⟩, rfl,
            ?_, by simp, by simp, ?_⟩
          · simp only [forgetInternal, hb, hf, hall, if_false, Bool.false_eq_true]
          · rw [hvals, hv]
          · intro i
            by_cases hi : i = b
            · subst hi; simpa using hw
            · rw [Function.update_of_ne hi]; exact hc i
          · intro e' p' heq
            simp only [LookupResult.ok.injEq] at heq
            obtain ⟨rfl, rfl⟩ := heq
            simp [lookupInternal, hb, h1, h2]
          · intro path' ht' hne e' p' hl
            obtain ⟨b', hb', htb'⟩ := ht'.step
            simp only [lookupInternal, hb'] at hl ⊢
            rw [hsib]
            by_cases hbb : b' = b
            · subst hbb
              rw [Function.update_self]
              cases hl' : lookupInternal H h (c b') path' with
              | error e => rw [hl'] at hl; simp at hl
              | ok x =>
                rw [hl'] at hl
                cases x with
                | notInMemory => simp at hl
                | notFound p => simp at hl
                | ok e2 p2 =>
                  rw [hoth path' htb' hne e2 p2 hl']
                  exact hl
            · rw [Function.update_of_ne hbb]
              exact hl

end Verif.Merkle
