import Verif.Merkle.Binding

/-! # remember -/

namespace Verif.Merkle

variable {a : ℕ} {E I T : Type}

/-- The proof agrees with what the tree still stores along the path. -/
def Agree (H : Hasher E I T) (path : List (Fin a)) (pos : I) (e : E) (proof : List (List T)) :
    ℕ → Node a E I T → Prop
  | _, .empty => False
  | _, .forgotten _ => True
  | 0, .leaf _ p e0 => p = pos ∧ e0 = e
  | _ + 1, .leaf _ _ _ => False
  | 0, .branch _ _ => False
  | h + 1, .branch _ c =>
    levelInput H path proof (H.digestLeaf pos e) h = (List.ofFn fun i => (c i).value H) ∧
      ∀ b, path[h]? = some b → Agree H path pos e proof h (c b)

theorem insert_eq_ofFn {f : Fin a → T} {vs : List T} {b : Fin a} {x : T} (hl : vs.length = a - 1)
    (h : vs.take b ++ x :: vs.drop b = List.ofFn f) : x = f b ∧ vs = (List.ofFn f).eraseIdx b := by
  have hb := b.isLt
  rw [take_cons_drop_eq_insertIdx _ _ _ (by omega)] at h
  constructor
  · have h2 : (vs.insertIdx b x)[b.val]? = (List.ofFn f)[b.val]? := by rw [h]
    rw [List.getElem?_insertIdx_self] at h2
    have hb' : b.val ≤ vs.length := by omega
    simp [hb'] at h2
    exact h2
  · rw [← h, List.eraseIdx_insertIdx_self]

theorem remember_forgotten [NeZero a] (H : Hasher E I T) (idx : I → ℕ) (ha : 2 ≤ a) (pos : I) (e : E)
    (proof : List (List T)) (hw : ∀ v ∈ proof, v.length = a - 1) :
    ∀ (h : ℕ) (pre path : List (Fin a)) (v : T), Through h pre path → h ≤ proof.length →
      idx pos < a ^ path.length → toPath a (idx pos) path.length = path →
      ∃ n', rememberInternal H h (.forgotten v) path pos (some e) proof = .ok n' ∧
        WF H idx h pre n' ∧ n'.value H = foldTo H path proof (H.digestLeaf pos e) h ∧
        lookupInternal H h n' path = .ok (.ok e (proof.take h)) := by
  intro h
  induction h with
  | zero =>
    intro pre path v ht hl hp1 hp2
    have := ht.zero
    subst this
    exact ⟨mkLeaf H pos e, by simp [rememberInternal], ⟨rfl, hp1, hp2⟩,
      by simp [mkLeaf, Node.value, foldTo_zero], by simp [mkLeaf, lookupInternal]⟩
  | succ h ih =>
    intro pre path v ht hl hp1 hp2
    obtain ⟨b, hb, htb⟩ := ht.step
    obtain ⟨n, hr, hwf, hval, hlook⟩ := ih (b :: pre) path v htb (by omega) hp1 hp2
    have hlt : h < proof.length := by omega
    have hplt : h < path.length := by have := ht.1; omega
    have hpb : path[h] = b := by simpa [hplt] using hb
    have hlen := hw proof[h] (List.getElem_mem hlt)
    have hbl := b.isLt
    have hn1 : ¬ proof[h].length < b.val := by omega
    have hn2 : ¬ (proof[h].length + 1 ≠ a) := by omega
    have hne : proof[h] ≠ [] := by intro h0; rw [h0] at hlen; simp at hlen; omega
    set vs := proof[h].insertIdx b v with hvs
    have hvsl : vs.length = a := by
      rw [hvs, List.length_insertIdx_of_le_length (by omega)]; omega
    set c' : Fin a → Node a E I T :=
      Function.update (fun i => .forgotten (vs.getD i v)) b n with hc'
    have hvalues : (List.ofFn fun i => (c' i).value H) = vs.set b (n.value H) := by
      apply List.ext_getElem
      · simp [hvsl]
      · intro k h1 h2
        simp only [List.getElem_ofFn, List.getElem_set]
        by_cases hk : b.val = k
        · simp only [hk, if_true, hc']
          have : (⟨k, by simpa using h1⟩ : Fin a) = b := Fin.ext hk.symm
          rw [this, Function.update_self]
        · simp only [hk, if_false, hc']
          rw [Function.update_of_ne (by intro h3; apply hk; rw [← h3])]
          simp only [Node.value]
          rw [List.getD_eq_getElem?_getD, List.getElem?_eq_getElem (by rw [List.length_set] at h2; exact h2)]
          rfl
    have hset : vs.set b (n.value H) = proof[h].take b ++ n.value H :: proof[h].drop b := by
      rw [take_cons_drop_eq_insertIdx _ _ _ (by omega), hvs]
      have h1 := List.insertIdx_eraseIdx_self (l := vs) (n := b.val) (by omega) (n.value H)
      rw [← h1, hvs, List.eraseIdx_insertIdx_self]
    have hsib : siblings H c' b = proof[h] := by
      rw [siblings_eq_eraseIdx, hvalues, hset, take_cons_drop_eq_insertIdx _ _ _ (by omega),
        List.eraseIdx_insertIdx_self]
    refine ⟨.branch (H.digest (vs.set b (n.value H))) c', ?_, ⟨?_, ?_⟩, ?_, ?_⟩
    · simp only [rememberInternal, hb, List.getElem?_eq_getElem hlt, hn1, if_false, hn2, hr]
      rfl
    · unfold digestBranch; rw [hvalues]
    · intro i
      by_cases hi : i = b
      · subst hi; simpa [hc'] using hwf
      · simp only [hc']; rw [Function.update_of_ne hi]; cases h <;> trivial
    · show H.digest (vs.set b (n.value H)) = _
      rw [foldTo_succ_ne H path proof _ h hplt hlt hne, hset]
      simp only [levelInput, List.getElem?_eq_getElem hplt, List.getElem?_eq_getElem hlt, hval, hpb]
    · simp only [lookupInternal, hb, hsib]
      have : c' b = n := by simp [hc']
      rw [this, hlook]
      simp only [Except.ok.injEq, LookupResult.ok.injEq, true_and]
      rw [List.take_succ_eq_append_getElem hlt]

theorem remember_forgotten_none [NeZero a] (H : Hasher E I T) (idx : I → ℕ) (ha : 2 ≤ a) (pos : I)
    (proof : List (List T)) (hw : ∀ v ∈ proof, v.length = a - 1) :
    ∀ (h : ℕ) (pre path : List (Fin a)) (v : T), Through h pre path → h ≤ proof.length →
      idx pos < a ^ path.length → toPath a (idx pos) path.length = path →
      ∃ n', rememberInternal H h (.forgotten v) path pos none proof = .ok n' ∧
        WF H idx h pre n' ∧ n'.value H = foldTo H path proof (H.dflt) h ∧
        lookupInternal H h n' path = .ok (.notFound (proof.take h)) := by
  intro h
  induction h with
  | zero =>
    intro pre path v ht hl hp1 hp2
    have := ht.zero
    subst this
    exact ⟨Node.empty, by simp [rememberInternal], trivial,
      by simp [Node.value, foldTo_zero], by simp [lookupInternal]⟩
  | succ h ih =>
    intro pre path v ht hl hp1 hp2
    obtain ⟨b, hb, htb⟩ := ht.step
    obtain ⟨n, hr, hwf, hval, hlook⟩ := ih (b :: pre) path v htb (by omega) hp1 hp2
    have hlt : h < proof.length := by omega
    have hplt : h < path.length := by have := ht.1; omega
    have hpb : path[h] = b := by simpa [hplt] using hb
    have hlen := hw proof[h] (List.getElem_mem hlt)
    have hbl := b.isLt
    have hn1 : ¬ proof[h].length < b.val := by omega
    have hn2 : ¬ (proof[h].length + 1 ≠ a) := by omega
    have hne : proof[h] ≠ [] := by intro h0; rw [h0] at hlen; simp at hlen; omega
    set vs := proof[h].insertIdx b v with hvs
    have hvsl : vs.length = a := by
      rw [hvs, List.length_insertIdx_of_le_length (by omega)]; omega
    set c' : Fin a → Node a E I T :=
      Function.update (fun i => .forgotten (vs.getD i v)) b n with hc'
    have hvalues : (List.ofFn fun i => (c' i).value H) = vs.set b (n.value H) := by
      apply List.ext_getElem
      · simp [hvsl]
      · intro k h1 h2
        simp only [List.getElem_ofFn, List.getElem_set]
        by_cases hk : b.val = k
        · simp only [hk, if_true, hc']
          have : (⟨k, by simpa using h1⟩ : Fin a) = b := Fin.ext hk.symm
          rw [this, Function.update_self]
        · simp only [hk, if_false, hc']
          rw [Function.update_of_ne (by intro h3; apply hk; rw [← h3])]
          simp only [Node.value]
          rw [List.getD_eq_getElem?_getD, List.getElem?_eq_getElem (by rw [List.length_set] at h2; exact h2)]
          rfl
    have hset : vs.set b (n.value H) = proof[h].take b ++ n.value H :: proof[h].drop b := by
      rw [take_cons_drop_eq_insertIdx _ _ _ (by omega), hvs]
      have h1 := List.insertIdx_eraseIdx_self (l := vs) (n := b.val) (by omega) (n.value H)
      rw [← h1, hvs, List.eraseIdx_insertIdx_self]
    have hsib : siblings H c' b = proof[h] := by
      rw [siblings_eq_eraseIdx, hvalues, hset, take_cons_drop_eq_insertIdx _ _ _ (by omega),
        List.eraseIdx_insertIdx_self]
    refine ⟨.branch (H.digest (vs.set b (n.value H))) c', ?_, ⟨?_, ?_⟩, ?_, ?_⟩
    · simp only [rememberInternal, hb, List.getElem?_eq_getElem hlt, hn1, if_false, hn2, hr]
      rfl
    · unfold digestBranch; rw [hvalues]
    · intro i
      by_cases hi : i = b
      · subst hi; simpa [hc'] using hwf
      · simp only [hc']; rw [Function.update_of_ne hi]; cases h <;> trivial
    · show H.digest (vs.set b (n.value H)) = _
      rw [foldTo_succ_ne H path proof _ h hplt hlt hne, hset]
      simp only [levelInput, List.getElem?_eq_getElem hplt, List.getElem?_eq_getElem hlt, hval, hpb]
    · simp only [lookupInternal, hb, hsib]
      have : c' b = n := by simp [hc']
      rw [this, hlook]
      simp only [Except.ok.injEq, LookupResult.notFound.injEq]
      rw [List.take_succ_eq_append_getElem hlt]

theorem remember_good [NeZero a] (H : Hasher E I T) (idx : I → ℕ) (ha : 2 ≤ a) (pos : I) (e : E)
    (proof : List (List T)) (hw : ∀ v ∈ proof, v.length = a - 1) :
    ∀ (h : ℕ) (pre path : List (Fin a)) (n : Node a E I T), WF H idx h pre n → Through h pre path →
      h ≤ proof.length → idx pos < a ^ path.length → toPath a (idx pos) path.length = path →
      Agree H path pos e proof h n →
      foldTo H path proof (H.digestLeaf pos e) h = n.value H →
      ∃ n', rememberInternal H h n path pos (some e) proof = .ok n' ∧
        WF H idx h pre n' ∧ n'.value H = n.value H ∧
        lookupInternal H h n' path = .ok (.ok e (proof.take h)) ∧
        (∀ path', Through h pre path' → path' ≠ path → ∀ e p,
          lookupInternal H h n path' = .ok (.ok e p) →
          lookupInternal H h n' path' = .ok (.ok e p)) := by
  intro h
  induction h with
  | zero =>
    intro pre path n hwf ht hl hp1 hp2 hag hfold
    cases n with
    | empty => simp [Agree] at hag
    | branch v c => simp [WF] at hwf
    | forgotten v =>
      obtain ⟨n', h1, h2, h3, h4⟩ := remember_forgotten H idx ha pos e proof hw 0 pre path v ht hl hp1 hp2
      exact ⟨n', h1, h2, by rw [h3, hfold], h4, fun _ _ _ _ _ h => by simp [lookupInternal] at h⟩
    | leaf v p e0 =>
      simp only [Agree] at hag
      obtain ⟨rfl, rfl⟩ := hag
      exact ⟨_, by simp [rememberInternal], hwf, rfl, by simp [lookupInternal], fun _ _ _ _ _ h => h⟩
  | succ h ih =>
    intro pre path n hwf ht hl hp1 hp2 hag hfold
    cases n with
    | empty => simp [Agree] at hag
    | leaf v p e0 => simp [WF] at hwf
    | forgotten v =>
      obtain ⟨n', h1, h2, h3, h4⟩ :=
        remember_forgotten H idx ha pos e proof hw (h + 1) pre path v ht hl hp1 hp2
      exact ⟨n', h1, h2, by rw [h3, hfold], h4, fun _ _ _ _ _ h => by simp [lookupInternal] at h⟩
    | branch v c =>
      simp only [WF] at hwf
      obtain ⟨hv, hc⟩ := hwf
      simp only [Agree] at hag
      obtain ⟨hag1, hag2⟩ := hag
      obtain ⟨b, hb, htb⟩ := ht.step
      have hlt : h < proof.length := by omega
      have hplt : h < path.length := by have := ht.1; omega
      have hlen := hw proof[h] (List.getElem_mem hlt)
      have hli := hag1
      simp only [levelInput, hb, List.getElem?_eq_getElem hlt] at hli
      obtain ⟨hx1, hx2⟩ := insert_eq_ofFn hlen hli
      obtain ⟨n1, g1, g2, g3, g4, g5⟩ := ih (b :: pre) path (c b) (hc b) htb (by omega) hp1 hp2
        (hag2 b hb) hx1
      have hvals : (fun i => (Function.update c b n1 i).value H) = fun i => (c i).value H := by
        funext i
        by_cases hi : i = b
        · subst hi; simp [g3]
        · rw [Function.update_of_ne hi]
      have hsib : ∀ b', siblings H (Function.update c b n1) b' = siblings H c b' := by
        intro b'
        rw [siblings_eq_eraseIdx, siblings_eq_eraseIdx, hvals]
      refine ⟨.branch v (Function.update c b n1), by simp [rememberInternal, hb, g1], ⟨?_, ?_⟩, rfl,
        ?_, ?_⟩
      · unfold digestBranch; rw [hvals]; exact hv
      · intro i
        by_cases hi : i = b
        · subst hi; simpa using g2
        · rw [Function.update_of_ne hi]; exact hc i
      · simp only [lookupInternal, hb, Function.update_self, g4, hsib]
        rw [List.take_succ_eq_append_getElem hlt, hx2, siblings_eq_eraseIdx]
      · intro path' ht' hne e' p' hl'
        obtain ⟨b', hb', htb'⟩ := ht'.step
        simp only [lookupInternal, hb'] at hl' ⊢
        rw [hsib]
        by_cases hbb : b' = b
        · subst hbb
          rw [Function.update_self]
          cases hx : lookupInternal H h (c b') path' with
          | error e => rw [hx] at hl'; simp at hl'
          | ok x =>
            rw [hx] at hl'
            cases x with
            | notInMemory => simp at hl'
            | notFound p => simp at hl'
            | ok e2 p2 =>
              rw [g5 path' htb' hne e2 p2 hx]
              exact hl'
        · rw [Function.update_of_ne hbb]
          exact hl'

/-- Inputs of the hash evaluations the tree makes along a path: the children's values of the branch
node of height `k + 1`, if the tree stores one. -/
def treeInput (H : Hasher E I T) (path : List (Fin a)) : ℕ → Node a E I T → ℕ → Option (List T)
  | h + 1, .branch _ c, k =>
    if k = h then some (List.ofFn fun i => (c i).value H)
    else match path[h]? with
      | some b => treeInput H path h (c b) k
      | none => none
  | _, _, _ => none

/-- If the proof folds to the node's value, it agrees with the tree or breaks the hash. -/
theorem agree_or_collision [NeZero a] (H : Hasher E I T) (idx : I → ℕ) (hinj : Function.Injective idx)
    (ha : 2 ≤ a) (pos : I) (e : E)
    (proof : List (List T)) (hw : ∀ v ∈ proof, v.length = a - 1) :
    ∀ (h : ℕ) (pre path : List (Fin a)) (n : Node a E I T), WF H idx h pre n → Through h pre path →
      h ≤ proof.length → idx pos < a ^ path.length → toPath a (idx pos) path.length = path →
      foldTo H path proof (H.digestLeaf pos e) h = n.value H →
      Agree H path pos e proof h n ∨
      (∃ e', e' ≠ e ∧ H.digestLeaf pos e' = H.digestLeaf pos e) ∨
      H.digestLeaf pos e = H.dflt ∨
      (∃ k < h, H.digest (levelInput H path proof (H.digestLeaf pos e) k) = H.dflt) ∨
      (∃ k < h, ∃ l, treeInput H path h n k = some l ∧
        levelInput H path proof (H.digestLeaf pos e) k ≠ l ∧
        H.digest (levelInput H path proof (H.digestLeaf pos e) k) = H.digest l) := by
  intro h
  induction h with
  | zero =>
    intro pre path n hwf ht hl hp1 hp2 hfold
    rw [foldTo_zero] at hfold
    cases n with
    | empty => right; right; left; exact hfold
    | branch v c => simp [WF] at hwf
    | forgotten v => left; simp [Agree]
    | leaf v p e0 =>
      have := ht.zero
      subst this
      simp only [WF] at hwf
      have hpp : p = pos := hinj (toPath_inj _ _ _ hwf.2.1 hp1 (by rw [hwf.2.2, hp2]))
      subst hpp
      by_cases hee : e0 = e
      · left; simp [Agree, hee]
      · right; left
        refine ⟨e0, hee, ?_⟩
        rw [hfold]; simp [Node.value, hwf.1]
  | succ h ih =>
    intro pre path n hwf ht hl hp1 hp2 hfold
    have hlt : h < proof.length := by omega
    have hplt : h < path.length := by have := ht.1; omega
    have hlen := hw proof[h] (List.getElem_mem hlt)
    have hne : proof[h] ≠ [] := by intro h0; rw [h0] at hlen; simp at hlen; omega
    rw [foldTo_succ_ne H path proof _ h hplt hlt hne] at hfold
    cases n with
    | empty => right; right; right; left; exact ⟨h, by omega, hfold⟩
    | leaf v p e0 => simp [WF] at hwf
    | forgotten v => left; simp [Agree]
    | branch v c =>
      simp only [WF] at hwf
      obtain ⟨hv, hc⟩ := hwf
      obtain ⟨b, hb, htb⟩ := ht.step
      by_cases hli : levelInput H path proof (H.digestLeaf pos e) h =
          (List.ofFn fun i => (c i).value H)
      · have hli' := hli
        simp only [levelInput, hb, List.getElem?_eq_getElem hlt] at hli'
        obtain ⟨hx1, hx2⟩ := insert_eq_ofFn hlen hli'
        rcases ih (b :: pre) path (c b) (hc b) htb (by omega) hp1 hp2 hx1 with
          h1 | h1 | h1 | ⟨k, hk, h1⟩ | ⟨k, hk, l, h1, h2⟩
        · left
          simp only [Agree]
          refine ⟨hli, ?_⟩
          intro b' hb'
          rw [hb] at hb'
          simp only [Option.some.injEq] at hb'
          subst hb'
          exact h1
        · right; left; exact h1
        · right; right; left; exact h1
        · right; right; right; left; exact ⟨k, by omega, h1⟩
        · right; right; right; right
          refine ⟨k, by omega, l, ?_, h2⟩
          have : k ≠ h := by omega
          simp only [treeInput, this, if_false, hb, h1]
      · right; right; right; right
        refine ⟨h, by omega, _, ?_, hli, ?_⟩
        · simp only [treeInput, if_true]
        · rw [hfold]
          simp only [Node.value]
          rw [hv]; rfl

/-- The tree left by a successful forget agrees with the proof it returned. -/
theorem forget_agree [NeZero a] (H : Hasher E I T) (idx : I → ℕ) (ha : 2 ≤ a)
    (hinj : Function.Injective idx) (pos : I) (e : E) (P : List (List T)) :
    ∀ (h : ℕ) (pre path : List (Fin a)) (n n' : Node a E I T) (p : List (List T)),
      WF H idx h pre n → Through h pre path →
      idx pos < a ^ path.length → toPath a (idx pos) path.length = path →
      forgetInternal H h n path = .ok (n', .ok e p) → P.take h = p →
      Agree H path pos e P h n' := by
  intro h
  induction h with
  | zero =>
    intro pre path n n' p hwf ht hp1 hp2 hf hP
    cases n with
    | empty => simp [forgetInternal] at hf
    | branch v c => simp [WF] at hwf
    | forgotten v => simp [forgetInternal] at hf
    | leaf v p0 e0 =>
      simp only [forgetInternal, Except.ok.injEq, Prod.mk.injEq] at hf
      rw [← hf.1]
      simp [Agree]
  | succ h ih =>
    intro pre path n n' p hwf ht hp1 hp2 hf hP
    cases n with
    | empty => simp [forgetInternal] at hf
    | leaf v p0 e0 => simp [WF] at hwf
    | forgotten v => simp [forgetInternal] at hf
    | branch v c =>
      have hwf0 := hwf
      simp only [WF] at hwf
      obtain ⟨hv, hc⟩ := hwf
      obtain ⟨b, hb, htb⟩ := ht.step
      obtain ⟨n1, r1, hf1, hw1, hval, hok, hnim, hnf, -⟩ := forget_spec H idx h (b :: pre) path (c b) (hc b) htb
      simp only [forgetInternal, hb, hf1] at hf
      cases r1 with
      | notInMemory => simp at hf
      | notFound p => simp at hf
      | ok e1 p1 =>
        simp only at hf
        by_cases hall : ((List.finRange a).all fun i =>
            (Function.update c b n1 i).isEmpty || (Function.update c b n1 i).isForgotten) = true
        · simp only [hall, if_true, Except.ok.injEq, Prod.mk.injEq] at hf
          rw [← hf.1]
          simp [Agree]
        · simp only [hall, if_false, Except.ok.injEq, Prod.mk.injEq, LookupResult.ok.injEq,
            Bool.false_eq_true] at hf
          obtain ⟨hn', he, hp⟩ := hf
          subst he
          obtain ⟨hl1, -⟩ := hok e1 p1 rfl
          obtain ⟨r, hr, hokf, -⟩ := lookup_fold H idx ha h (b :: pre) path (c b) (hc b) htb
          rw [hl1] at hr
          simp only [Except.ok.injEq] at hr
          obtain ⟨q1, q2, p0, q3, q4, q5⟩ := hokf e1 p1 hr.symm
          have hp0 : p0 = pos := hinj (toPath_inj _ _ _ q3 hp1 (by rw [q4, hp2]))
          subst hp0
          have hPl : h < P.length := by
            have : (P.take (h + 1)).length = h + 1 := by rw [hP, ← hp]; simp [q1]
            simp at this; omega
          have hPt : P.take (h + 1) = p1 ++ [siblings H c b] := by rw [hP, hp]
          rw [List.take_succ_eq_append_getElem hPl] at hPt
          have hsplit := List.append_inj hPt (by simp [q1]; omega)
          simp only [List.cons.injEq, and_true] at hsplit
          rw [← hn']
          simp only [Agree]
          refine ⟨?_, ?_⟩
          · simp only [levelInput, hb, List.getElem?_eq_getElem hPl, hsplit.2]
            have hft : foldTo H path P (H.digestLeaf p0 e1) h = (c b).value H := by
              unfold foldTo; rw [hsplit.1]; exact q5
            rw [hft, take_cons_drop_eq_insertIdx _ _ _
              (by rw [siblings_length]; have := b.isLt; omega), siblings_eq_eraseIdx]
            have := List.insertIdx_eraseIdx_getElem (l := List.ofFn fun i => (c i).value H)
              (n := b.val) (by simp)
            rw [List.getElem_ofFn] at this
            have h2 : (fun i => (Function.update c b n1 i).value H) = fun i => (c i).value H := by
              funext i
              by_cases hi : i = b
              · subst hi; simp [hval]
              · rw [Function.update_of_ne hi]
            rw [h2]
            exact this
          · intro b' hb'
            rw [hb] at hb'
            simp only [Option.some.injEq] at hb'
            subst hb'
            rw [Function.update_self]
            exact ih (b :: pre) path (c b) n1 p1 (hc b) htb hp1 hp2 hf1 hsplit.1

end Verif.Merkle
