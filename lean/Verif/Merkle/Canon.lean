import Verif.Merkle.WF

/-! # Canonical trees: the tree determined by its contents -/

namespace Verif.Merkle

variable {a : ℕ} {E I T : Type}

/-- Contents of a tree: full path (least significant digit first) to stored position and element. -/
abbrev Content (a : ℕ) (I E : Type) := List (Fin a) → Option (I × E)

/-- The tree that any history with contents `m` produces. -/
def canon (H : Hasher E I T) (m : Content a I E) : ℕ → List (Fin a) → Node a E I T
  | 0, pre => match m pre with
    | none => .empty
    | some (p, e) => mkLeaf H p e
  | h + 1, pre =>
    if (List.finRange a).all fun i => (canon H m h (i :: pre)).isEmpty then .empty
    else mkBranch H fun i => canon H m h (i :: pre)

theorem isEmpty_iff (n : Node a E I T) : n.isEmpty = true ↔ n = .empty := by
  cases n <;> simp [Node.isEmpty]

theorem canon_not_forgotten (H : Hasher E I T) (m : Content a I E) (h : ℕ) (pre : List (Fin a)) :
    (canon H m h pre).isForgotten = false := by
  cases h with
  | zero =>
    simp only [canon]
    split <;> simp [Node.isForgotten, mkLeaf]
  | succ h =>
    simp only [canon]
    split <;> simp [Node.isForgotten, mkBranch]

theorem canon_congr (H : Hasher E I T) (m m' : Content a I E) (h : ℕ) :
    ∀ (pre : List (Fin a)), (∀ q, q.length = h + pre.length → q.drop h = pre → m q = m' q) →
      canon H m h pre = canon H m' h pre := by
  induction h with
  | zero =>
    intro pre hq
    simp only [canon]
    rw [hq pre (by simp) (by simp)]
  | succ h ih =>
    intro pre hq
    have : ∀ i, canon H m h (i :: pre) = canon H m' h (i :: pre) := by
      intro i
      apply ih
      intro q h1 h2
      apply hq q (by simp at h1; omega)
      have hlt : h < q.length := by simp at h1; omega
      rw [List.drop_eq_getElem_cons hlt] at h2
      simp only [List.cons.injEq] at h2
      exact h2.2
    simp only [canon, this]

/-- Everything under an empty canonical node is absent. -/
theorem canon_empty (H : Hasher E I T) (m : Content a I E) (h : ℕ) :
    ∀ (pre path : List (Fin a)), Through h pre path → canon H m h pre = .empty → m path = none := by
  induction h with
  | zero =>
    intro pre path ht he
    have := ht.zero
    subst this
    simp only [canon] at he
    split at he
    · assumption
    · simp [mkLeaf] at he
  | succ h ih =>
    intro pre path ht he
    obtain ⟨b, hb, htb⟩ := ht.step
    simp only [canon] at he
    split at he
    · rename_i hall
      rw [List.all_eq_true] at hall
      exact ih (b :: pre) path htb ((isEmpty_iff _).mp (hall b (List.mem_finRange b)))
    · simp [mkBranch] at he

theorem canon_empty_of_none (H : Hasher E I T) (m : Content a I E) (h : ℕ) :
    ∀ (pre : List (Fin a)), (∀ path, Through h pre path → m path = none) →
      canon H m h pre = .empty := by
  induction h with
  | zero =>
    intro pre hq
    simp [canon, hq pre (by simp [Through])]
  | succ h ih =>
    intro pre hq
    have : ∀ i, canon H m h (i :: pre) = .empty := by
      intro i
      apply ih
      intro path ht
      apply hq
      refine ⟨by have := ht.1; simp at this; omega, ?_⟩
      have hlt : h < path.length := by have := ht.1; simp at this; omega
      have h2 := ht.2
      rw [List.drop_eq_getElem_cons hlt] at h2
      simp only [List.cons.injEq] at h2
      exact h2.2
    simp [canon, this, Node.isEmpty]

/-- What `update_with` stores: an existing leaf keeps its stored position. -/
def newEntry (pos : I) (f : Option E → Option E) : Option (I × E) → Option (I × E)
  | none => (f none).map fun e => (pos, e)
  | some (p, e) => (f (some e)).map fun e' => (p, e')

/-- Reported previous state. -/
def oldResult : Option (I × E) → LookupResult E Unit Unit
  | none => .notFound ()
  | some (_, e) => .ok e ()

/-- Change of the number of leaves. -/
def deltaOf (old new : Option (I × E)) : ℤ :=
  (if new.isSome then 1 else 0) - (if old.isSome then 1 else 0)

theorem canon_update_other (H : Hasher E I T) (m : Content a I E) (x : Option (I × E))
    (h : ℕ) (pre path : List (Fin a)) (b i : Fin a) (ht : Through h (b :: pre) path) (hne : i ≠ b) :
    canon H (Function.update m path x) h (i :: pre) = canon H m h (i :: pre) := by
  apply canon_congr
  intro q h1 h2
  rw [Function.update_of_ne]
  rintro rfl
  have := ht.2
  rw [h2] at this
  simp only [List.cons.injEq] at this
  exact hne this.1

theorem update_canon (H : Hasher E I T) (m : Content a I E) (pos : I)
    (f : Option E → Option E) : ∀ (h : ℕ) (pre path : List (Fin a)), Through h pre path →
      updateWithInternal H h (canon H m h pre) pos path f =
        .ok (canon H (Function.update m path (newEntry pos f (m path))) h pre,
          deltaOf (m path) (newEntry pos f (m path)), oldResult (m path)) := by
  intro h
  induction h with
  | zero =>
    intro pre path ht
    have := ht.zero
    subst this
    simp only [canon, Function.update_self]
    cases hm : m path with
    | none =>
      simp only [updateWithInternal, newEntry]
      cases hf : f none <;> simp [deltaOf, oldResult]
    | some pe =>
      obtain ⟨p, e⟩ := pe
      simp only [mkLeaf, updateWithInternal, newEntry]
      cases hf : f (some e) <;> simp [deltaOf, oldResult]
  | succ h ih =>
    intro pre path ht
    obtain ⟨b, hb, htb⟩ := ht.step
    have hih := ih (b :: pre) path htb
    generalize hx : newEntry pos f (m path) = x at *
    have hother : ∀ i, i ≠ b → canon H (Function.update m path x) h (i :: pre)
        = canon H m h (i :: pre) := fun i hi => canon_update_other H m x h pre path b i htb hi
    by_cases hall : ((List.finRange a).all fun i => (canon H m h (i :: pre)).isEmpty) = true
    · have hemp : canon H m (h + 1) pre = .empty := by simp only [canon, hall, if_true]
      have hchild : ∀ i, canon H m h (i :: pre) = .empty := by
        intro i
        rw [List.all_eq_true] at hall
        exact (isEmpty_iff _).mp (hall i (List.mem_finRange i))
      rw [hchild b] at hih
      have hupd : Function.update (fun _ => Node.empty) b
            (canon H (Function.update m path x) h (b :: pre))
          = fun i => canon H (Function.update m path x) h (i :: pre) := by
        funext i
        by_cases hi : i = b
        · subst hi; simp
        · rw [Function.update_of_ne hi, hother i hi, hchild i]
      rw [hemp]
      simp only [updateWithInternal, hb, hih, hupd]
      by_cases hn : (canon H (Function.update m path x) h (b :: pre)).isEmpty = true
      · have hn' := (isEmpty_iff _).mp hn
        have hold : m path = none := canon_empty H m h (b :: pre) path htb (hchild b)
        have hnew : x = none := by
          have := canon_empty H _ h (b :: pre) path htb hn'
          simpa using this
        simp only [hn, if_true]
        have hall' : ((List.finRange a).all fun i =>
            (canon H (Function.update m path x) h (i :: pre)).isEmpty) = true := by
          rw [List.all_eq_true]
          intro i _
          by_cases hi : i = b
          · subst hi; exact hn
          · rw [hother i hi, hchild i]; rfl
        simp only [canon, hall', if_true]
        simp [hold, hnew, deltaOf]
      · have hall' : ¬ ((List.finRange a).all fun i =>
            (canon H (Function.update m path x) h (i :: pre)).isEmpty) = true := by
          rw [List.all_eq_true]
          intro hcon
          exact hn (hcon b (List.mem_finRange b))
        simp only [hn, canon, hall', if_false, Bool.false_eq_true]
    · have hbr : canon H m (h + 1) pre = mkBranch H fun i => canon H m h (i :: pre) := by
        simp only [canon, hall, if_false, Bool.false_eq_true]
      have hupd : Function.update (fun i => canon H m h (i :: pre)) b
            (canon H (Function.update m path x) h (b :: pre))
          = fun i => canon H (Function.update m path x) h (i :: pre) := by
        funext i
        by_cases hi : i = b
        · subst hi; simp
        · rw [Function.update_of_ne hi, hother i hi]
      rw [hbr]
      simp only [mkBranch, updateWithInternal, hb, hih, hupd, canon_not_forgotten, if_false,
        Bool.false_eq_true]
      by_cases hall' : ((List.finRange a).all fun i =>
          (canon H (Function.update m path x) h (i :: pre)).isEmpty) = true
      · simp only [canon, hall', if_true]
      · simp only [canon, hall', if_false, Bool.false_eq_true, mkBranch]

/-- What lookup observes on a canonical tree. -/
theorem lookup_canon (H : Hasher E I T) (m : Content a I E) :
    ∀ (h : ℕ) (pre path : List (Fin a)), Through h pre path →
      match m path with
      | none => ∃ p, lookupInternal H h (canon H m h pre) path = .ok (.notFound p)
      | some (_, e) => ∃ p, lookupInternal H h (canon H m h pre) path = .ok (.ok e p) := by
  intro h
  induction h with
  | zero =>
    intro pre path ht
    have := ht.zero
    subst this
    simp only [canon]
    cases hm : m path with
    | none => simp [lookupInternal]
    | some pe => obtain ⟨p, e⟩ := pe; simp [mkLeaf, lookupInternal]
  | succ h ih =>
    intro pre path ht
    obtain ⟨b, hb, htb⟩ := ht.step
    have hih := ih (b :: pre) path htb
    by_cases hall : ((List.finRange a).all fun i => (canon H m h (i :: pre)).isEmpty) = true
    · have hemp : canon H m (h + 1) pre = .empty := by simp only [canon, hall, if_true]
      have := canon_empty H m (h + 1) pre path ht hemp
      rw [this, hemp]
      simp [lookupInternal]
    · have hbr : canon H m (h + 1) pre = mkBranch H fun i => canon H m h (i :: pre) := by
        simp only [canon, hall, if_false, Bool.false_eq_true]
      rw [hbr]
      simp only [mkBranch]
      cases hm : m path with
      | none =>
        rw [hm] at hih
        obtain ⟨p, hp⟩ := hih
        simp [lookupInternal, hb, hp]
      | some pe =>
        obtain ⟨p0, e⟩ := pe
        rw [hm] at hih
        obtain ⟨p, hp⟩ := hih
        simp [lookupInternal, hb, hp]

/-- Canonical trees whose stored positions are coherent are well formed. -/
theorem canon_wf [NeZero a] (H : Hasher E I T) (idx : I → ℕ) (m : Content a I E) (h : ℕ) :
    ∀ pre : List (Fin a), (∀ path p e, Through h pre path → m path = some (p, e) →
        idx p < a ^ path.length ∧ toPath a (idx p) path.length = path) →
      WF H idx h pre (canon H m h pre) := by
  induction h with
  | zero =>
    intro pre hq
    simp only [canon]
    cases hm : m pre with
    | none => simp [WF]
    | some pe =>
      obtain ⟨p, e⟩ := pe
      simp only [mkLeaf, WF, true_and]
      exact hq pre p e (by simp [Through]) hm
  | succ h ih =>
    intro pre hq
    simp only [canon]
    split
    · simp [WF]
    · simp only [mkBranch, WF, true_and]
      intro i
      apply ih
      intro path p e ht
      apply hq
      refine ⟨by have := ht.1; simp at this; omega, ?_⟩
      have hlt : h < path.length := by have := ht.1; simp at this; omega
      have h2 := ht.2
      rw [List.drop_eq_getElem_cons hlt] at h2
      simp only [List.cons.injEq] at h2
      exact h2.2

end Verif.Merkle
