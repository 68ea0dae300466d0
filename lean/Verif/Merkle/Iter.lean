import Verif.Merkle.RangeVerify

/-! # Iteration and bulk proof collection -/

namespace Verif.Merkle

variable {a : ℕ} {E I T : Type}

/-- The remembered leaves below a node, left to right. -/
def leaves : Node a E I T → List (I × E)
  | .empty => []
  | .forgotten _ => []
  | .leaf _ p e => [(p, e)]
  | .branch _ c => (List.finRange a).flatMap fun i => leaves (c i)

theorem flatMap_filter_leaves (c : Fin a → Node a E I T) (l : List (Fin a)) :
    ((l.map c).filter fun n => !n.isEmpty && !n.isForgotten).flatMap leaves =
      l.flatMap fun i => leaves (c i) := by
  induction l with
  | nil => rfl
  | cons i l ih =>
    rw [List.map_cons, List.filter_cons, List.flatMap_cons]
    split
    · rw [List.flatMap_cons, ih]
    · rename_i h
      rw [ih]
      have : leaves (c i) = [] := by
        cases hc : c i <;> simp [hc, Node.isEmpty, Node.isForgotten] at h <;> rfl
      rw [this, List.nil_append]

theorem ofFn_eq_map_finRange {X : Type} (c : Fin a → X) : List.ofFn c = (List.finRange a).map c := by
  exact List.ofFn_eq_map

theorem iterYields_eq (st : List (Node a E I T)) (out : List (I × E)) (h : IterYields st out) :
    out = st.flatMap leaves := by
  induction h with
  | nil => rfl
  | branch v c st out _ ih =>
    rw [ih, List.flatMap_append, List.flatMap_cons, ofFn_eq_map_finRange, flatMap_filter_leaves]
    rfl
  | leaf v p e st out _ ih => rw [ih, List.flatMap_cons]; rfl
  | empty st out _ ih => rw [ih, List.flatMap_cons]; rfl
  | forgotten v st out _ ih => rw [ih, List.flatMap_cons]; rfl

theorem iterYields_cons (n : Node a E I T) : ∀ (st : List (Node a E I T)) (out : List (I × E)),
    IterYields st out → IterYields (n :: st) (leaves n ++ out) := by
  induction n with
  | empty => intro st out h; exact .empty st out h
  | forgotten v => intro st out h; exact .forgotten v st out h
  | leaf v p e => intro st out h; exact .leaf v p e st out h
  | branch v c ih =>
    intro st out h
    apply IterYields.branch
    rw [ofFn_eq_map_finRange]
    have key : ∀ l : List (Fin a), IterYields
        (((l.map c).filter fun n => !n.isEmpty && !n.isForgotten) ++ st)
        ((l.flatMap fun i => leaves (c i)) ++ out) := by
      intro l
      induction l with
      | nil => exact h
      | cons i l ihl =>
        rw [List.map_cons, List.filter_cons, List.flatMap_cons]
        split
        · rw [List.cons_append, List.append_assoc]
          exact ih i _ _ ihl
        · rename_i hf
          have : leaves (c i) = [] := by
            cases hc : c i <;> simp [hc, Node.isEmpty, Node.isForgotten] at hf <;> rfl
          rw [this, List.nil_append]
          exact ihl
    exact key _

theorem iterYields_exists (st : List (Node a E I T)) : IterYields st (st.flatMap leaves) := by
  induction st with
  | nil => exact .nil
  | cons n st ih => rw [List.flatMap_cons]; exact iterYields_cons n st _ ih

/-- Position and lookup of a leaf. -/
theorem leaves_lookup [NeZero a] (H : Hasher E I T) (idx : I → ℕ) : ∀ (h : ℕ) (pre : List (Fin a)) (b : ℕ)
    (n : Node a E I T), WF H idx h pre n → Base h pre b → ∀ p e, (p, e) ∈ leaves n →
    b ≤ idx p ∧ idx p < b + a ^ h ∧ ∀ path : List (Fin a),
      (∀ k, k < h → path[k]? = some (Fin.ofNat a (idx p / a ^ k))) →
      ∃ q, lookupInternal H h n path = .ok (.ok e q) := by
  intro h
  induction h with
  | zero =>
    intro pre b n hwf hb p e hm
    cases n with
    | empty => simp [leaves] at hm
    | forgotten v => simp [leaves] at hm
    | branch v c => exact absurd hwf (by simp [WF])
    | leaf v p' e' =>
      simp only [leaves, List.mem_singleton, Prod.mk.injEq] at hm
      obtain ⟨rfl, rfl⟩ := hm
      obtain ⟨-, h1, h2⟩ := hwf
      obtain ⟨h3, h4⟩ := hb.zero
      have : idx p = b := toPath_inj _ _ pre.length h1 h3 (by rw [h2, h4])
      refine ⟨by omega, by simp [this], fun path _ => ⟨[], rfl⟩⟩
  | succ h ih =>
    intro pre b n hwf hb p e hm
    cases n with
    | empty => simp [leaves] at hm
    | forgotten v => simp [leaves] at hm
    | leaf v p' e' => exact absurd hwf (by simp [WF])
    | branch v c =>
      simp only [leaves, List.mem_flatMap] at hm
      obtain ⟨i, -, hm⟩ := hm
      obtain ⟨h1, h2, h3⟩ := ih (i :: pre) _ (c i) (hwf.2 i) (hb.child i) p e hm
      have hA := pow_pos' (a := a) h
      have hle : (i.val + 1) * a ^ h ≤ a * a ^ h := Nat.mul_le_mul_right _ i.isLt
      have hpow : a ^ (h + 1) = a * a ^ h := by rw [pow_succ, Nat.mul_comm]
      rw [Nat.add_mul, Nat.one_mul] at hle
      have hlt : idx p < b + a ^ (h + 1) := by omega
      refine ⟨by omega, hlt, ?_⟩
      intro path hpath
      obtain ⟨q, hq⟩ := h3 path (fun k hk => hpath k (by omega))
      have hdig : Fin.ofNat a (idx p / a ^ h) = i := by
        apply Fin.ext
        simp only [Fin.ofNat]
        have hd := digit_bounds h b (idx p) hb.1 (by omega) hlt
        set d := idx p / a ^ h % a with hdd
        rcases Nat.lt_trichotomy d i.val with hlt' | heq | hgt
        · have : (d + 1) * a ^ h ≤ i.val * a ^ h := Nat.mul_le_mul_right _ hlt'
          rw [Nat.add_mul, Nat.one_mul] at this
          omega
        · exact heq
        · have : (i.val + 1) * a ^ h ≤ d * a ^ h := Nat.mul_le_mul_right _ hgt
          rw [Nat.add_mul, Nat.one_mul] at this
          omega
      have hph := hpath h (by omega)
      rw [hdig] at hph
      refine ⟨q ++ [siblings H c i], ?_⟩
      simp only [lookupInternal, hph, hq]

theorem leaves_sorted [NeZero a] (H : Hasher E I T) (idx : I → ℕ) : ∀ (h : ℕ) (pre : List (Fin a)) (b : ℕ)
    (n : Node a E I T), WF H idx h pre n → Base h pre b →
    (leaves n).Pairwise fun x y => idx x.1 < idx y.1 := by
  intro h
  induction h with
  | zero =>
    intro pre b n hwf hb
    cases n with
    | empty => simp [leaves]
    | forgotten v => simp [leaves]
    | branch v c => exact absurd hwf (by simp [WF])
    | leaf v p' e' => simp [leaves]
  | succ h ih =>
    intro pre b n hwf hb
    cases n with
    | empty => simp [leaves]
    | forgotten v => simp [leaves]
    | leaf v p' e' => exact absurd hwf (by simp [WF])
    | branch v c =>
      simp only [leaves]
      rw [List.pairwise_flatMap]
      refine ⟨fun i _ => ih _ _ _ (hwf.2 i) (hb.child i), ?_⟩
      have hfin : (List.finRange a).Pairwise (· < ·) := List.pairwise_lt_finRange a
      refine hfin.imp ?_
      intro i j hij x hx y hy
      obtain ⟨-, h1, -⟩ := leaves_lookup H idx h _ _ (c i) (hwf.2 i) (hb.child i) x.1 x.2 hx
      obtain ⟨h2, -, -⟩ := leaves_lookup H idx h _ _ (c j) (hwf.2 j) (hb.child j) y.1 y.2 hy
      have : (i.val + 1) * a ^ h ≤ j.val * a ^ h := Nat.mul_le_mul_right _ hij
      rw [Nat.add_mul, Nat.one_mul] at this
      omega

/-- A successful lookup finds a leaf of the iteration. -/
theorem lookup_mem_leaves [NeZero a] (H : Hasher E I T) (idx : I → ℕ) : ∀ (h : ℕ) (pre path : List (Fin a))
    (n : Node a E I T), WF H idx h pre n → Through h pre path → ∀ e q,
    lookupInternal H h n path = .ok (.ok e q) →
    ∃ p, (p, e) ∈ leaves n ∧ idx p < a ^ path.length ∧ toPath a (idx p) path.length = path := by
  intro h
  induction h with
  | zero =>
    intro pre path n hwf ht e q hl
    cases n with
    | empty => simp [lookupInternal] at hl
    | forgotten v => simp [lookupInternal] at hl
    | branch v c => exact absurd hwf (by simp [WF])
    | leaf v p' e' =>
      simp only [lookupInternal, Except.ok.injEq, LookupResult.ok.injEq] at hl
      obtain ⟨rfl, -⟩ := hl
      obtain ⟨-, h1, h2⟩ := hwf
      have := ht.zero
      subst this
      exact ⟨p', by simp [leaves], h1, h2⟩
  | succ h ih =>
    intro pre path n hwf ht e q hl
    cases n with
    | empty => simp [lookupInternal] at hl
    | forgotten v => simp [lookupInternal] at hl
    | leaf v p' e' => exact absurd hwf (by simp [WF])
    | branch v c =>
      obtain ⟨i, hi, ht'⟩ := ht.step
      simp only [lookupInternal, hi] at hl
      split at hl
      · simp at hl
      · rename_i e' q' heq
        simp only [Except.ok.injEq, LookupResult.ok.injEq] at hl
        obtain ⟨rfl, -⟩ := hl
        obtain ⟨p, h1, h2⟩ := ih _ path _ (hwf.2 i) ht' _ _ heq
        exact ⟨p, by simp only [leaves, List.mem_flatMap]; exact ⟨i, List.mem_finRange i, h1⟩, h2⟩
      · simp at hl
      · simp at hl

/-! ## Bulk proofs -/

theorem collect_spec [NeZero a] (H : Hasher E I T) (idx : I → ℕ) : ∀ (h : ℕ) (pre : List (Fin a)) (b : ℕ)
    (n : Node a E I T) (buf : List (List T)), WF H idx h pre n → Base h pre b →
    h ≤ buf.length → (∀ v ∈ buf, v.length + 1 = a) →
    ∃ buf' out, collectAllWithProofs H h n buf = .ok (buf', out) ∧ buf'.length = buf.length ∧
      (∀ v ∈ buf', v.length + 1 = a) ∧ buf'.drop h = buf.drop h ∧
      out.map (fun x => (x.1, x.2.1)) = leaves n ∧
      ∀ p e pr, (p, e, pr) ∈ out → ∀ path : List (Fin a),
        (∀ k, k < h → path[k]? = some (Fin.ofNat a (idx p / a ^ k))) →
        ∃ q, lookupInternal H h n path = .ok (.ok e q) ∧ q.length = h ∧ pr = q ++ buf.drop h := by
  intro h
  induction h with
  | zero =>
    intro pre b n buf hwf hb hlen hv
    cases n with
    | empty => exact ⟨buf, [], rfl, rfl, hv, rfl, rfl, by simp⟩
    | forgotten v => exact ⟨buf, [], rfl, rfl, hv, rfl, rfl, by simp⟩
    | branch v c => exact absurd hwf (by simp [WF])
    | leaf v p' e' =>
      refine ⟨buf, _, rfl, rfl, hv, rfl, rfl, ?_⟩
      intro p e pr hm path _
      simp only [List.mem_singleton, Prod.mk.injEq] at hm
      obtain ⟨rfl, rfl, rfl⟩ := hm
      exact ⟨[], rfl, rfl, by simp⟩
  | succ h ih =>
    intro pre b n buf hwf hb hlen hv
    cases n with
    | empty => exact ⟨buf, [], rfl, rfl, hv, rfl, rfl, by simp⟩
    | forgotten v => exact ⟨buf, [], rfl, rfl, hv, rfl, rfl, by simp⟩
    | leaf v p' e' => exact absurd hwf (by simp [WF])
    | branch v c =>
      have hfold : ∀ (l : List (Fin a)) (buf0 : List (List T)) (out0 : List (I × E × List (List T))),
          buf0.length = buf.length → (∀ v ∈ buf0, v.length + 1 = a) →
          buf0.drop (h + 1) = buf.drop (h + 1) →
          ∃ buf' out, l.foldl
            (fun (st : Except MErr (List (List T) × List (I × E × List (List T)))) i =>
              match st with
              | .error e => .error e
              | .ok (buf, out) =>
                match buf[h]? with
                | none => .error .panic
                | some lvl =>
                  if lvl.length + 1 = a then
                    match collectAllWithProofs H h (c i)
                      (buf.set h ((List.ofFn fun i => (c i).value H).take i ++
                        (List.ofFn fun i => (c i).value H).drop (i + 1))) with
                    | .error e => .error e
                    | .ok (buf', out') => .ok (buf', out ++ out')
                  else .error .panic)
            (.ok (buf0, out0)) = .ok (buf', out0 ++ out) ∧ buf'.length = buf.length ∧
            (∀ v ∈ buf', v.length + 1 = a) ∧ buf'.drop (h + 1) = buf.drop (h + 1) ∧
            out.map (fun x => (x.1, x.2.1)) = l.flatMap (fun i => leaves (c i)) ∧
            ∀ p e pr, (p, e, pr) ∈ out → ∀ path : List (Fin a),
              (∀ k, k < h + 1 → path[k]? = some (Fin.ofNat a (idx p / a ^ k))) →
              ∃ q, lookupInternal H (h + 1) (.branch v c) path = .ok (.ok e q) ∧ q.length = h + 1 ∧
                pr = q ++ buf.drop (h + 1) := by
        intro l
        induction l with
        | nil =>
          intro buf0 out0 h1 h2 h3
          exact ⟨buf0, [], by simp, h1, h2, h3, rfl, by simp⟩
        | cons i l ihl =>
          intro buf0 out0 h1 h2 h3
          rw [List.foldl_cons]
          have hlt : h < buf0.length := by omega
          have hsib : (List.ofFn fun i => (c i).value H).take i ++
              (List.ofFn fun i => (c i).value H).drop (i + 1) = siblings H c i := by
            rw [siblings_eq_eraseIdx, List.eraseIdx_eq_take_drop_succ]
          have hsl : (siblings H c i).length + 1 = a := by
            rw [← hsib]; simp; omega
          simp only [List.getElem?_eq_getElem hlt, hsib]
          rw [if_pos (h2 _ (List.getElem_mem hlt))]
          obtain ⟨b1, o1, hc, hb1, hb2, hb3, hb4, hb5⟩ := ih (i :: pre) _ (c i)
            (buf0.set h (siblings H c i)) (hwf.2 i) (hb.child i) (by simp; omega)
            (by
              intro v hv
              rcases List.mem_or_eq_of_mem_set hv with h' | h'
              · exact h2 v h'
              · rw [h']; exact hsl)
          rw [hc]
          simp only
          have hd1 : b1.drop (h + 1) = buf.drop (h + 1) := by
            have := congrArg (List.drop 1) hb3
            rw [List.drop_drop, List.drop_drop] at this
            rw [this, List.drop_set, if_pos (by omega), h3]
          have hb3' : b1.drop h = siblings H c i :: buf.drop (h + 1) := by
            rw [hb3, List.drop_set, if_neg (by omega), Nat.sub_self, List.drop_eq_getElem_cons hlt,
              List.set_cons_zero, h3]
          obtain ⟨b2, o2, hf, h4, h5, h6, h7, h8⟩ := ihl b1 (out0 ++ o1)
            (by rw [hb1]; simp [h1]) hb2 hd1
          refine ⟨b2, o1 ++ o2, ?_, h4, h5, h6, ?_, ?_⟩
          · rw [← List.append_assoc]; exact hf
          · rw [List.map_append, hb4, h7, List.flatMap_cons]
          · intro p e pr hm path hpath
            rw [List.mem_append] at hm
            rcases hm with hm | hm
            · obtain ⟨q, hq, hql, hpr⟩ := hb5 p e pr hm path (fun k hk => hpath k (by omega))
              have hleaf : (p, e) ∈ leaves (c i) := by
                rw [← hb4, List.mem_map]; exact ⟨_, hm, rfl⟩
              have hdig : path[h]? = some i := by
                rw [hpath h (by omega)]
                congr 1
                obtain ⟨g1, g2, -⟩ := leaves_lookup H idx h _ _ (c i) (hwf.2 i) (hb.child i) p e hleaf
                have hA := pow_pos' (a := a) h
                have hle : (i.val + 1) * a ^ h ≤ a * a ^ h := Nat.mul_le_mul_right _ i.isLt
                have hpow : a ^ (h + 1) = a * a ^ h := by rw [pow_succ, Nat.mul_comm]
                rw [Nat.add_mul, Nat.one_mul] at hle
                apply Fin.ext
                simp only [Fin.ofNat]
                have hd := digit_bounds h b (idx p) hb.1 (by omega) (by omega)
                set d := idx p / a ^ h % a with hdd
                rcases Nat.lt_trichotomy d i.val with hlt' | heq | hgt
                · have : (d + 1) * a ^ h ≤ i.val * a ^ h := Nat.mul_le_mul_right _ hlt'
                  rw [Nat.add_mul, Nat.one_mul] at this
                  omega
                · exact heq
                · have : (i.val + 1) * a ^ h ≤ d * a ^ h := Nat.mul_le_mul_right _ hgt
                  rw [Nat.add_mul, Nat.one_mul] at this
                  omega
              refine ⟨q ++ [siblings H c i], ?_, by simp [hql], ?_⟩
              · simp only [lookupInternal, hdig, hq]
              · rw [hpr, List.append_assoc]
                congr 1
                rw [List.drop_set, if_neg (by omega), Nat.sub_self, List.drop_eq_getElem_cons hlt,
                  List.set_cons_zero, h3]
                rfl
            · exact h8 p e pr hm path hpath
      obtain ⟨b2, o2, hf, h4, h5, h6, h7, h8⟩ := hfold (List.finRange a) buf [] rfl hv rfl
      refine ⟨b2, o2, ?_, h4, h5, h6, ?_, h8⟩
      · rw [List.nil_append] at hf
        exact hf
      · rw [h7]; rfl

/-! ## Range proofs against a real tree -/

/-- Every node value is the hash of what is below it, and nothing is forgotten. -/
def Honest (H : Hasher E I T) : Node a E I T → Prop
  | .empty => True
  | .forgotten _ => False
  | .leaf v p e => v = H.digestLeaf p e
  | .branch v c => v = digestBranch H c ∧ ∀ i, Honest H (c i)

/-- `m` occurs in `n`. -/
inductive Sub : Node a E I T → Node a E I T → Prop
  | refl (n : Node a E I T) : Sub n n
  | child (m : Node a E I T) (v : T) (c : Fin a → Node a E I T) (i : Fin a) :
      Sub m (c i) → Sub m (.branch v c)

theorem Sub.trans {l m n : Node a E I T} (h1 : Sub l m) (h2 : Sub m n) : Sub l n := by
  induction h2 with
  | refl => exact h1
  | child v c i _ ih => exact .child _ _ _ _ ih

theorem Sub.honest (H : Hasher E I T) {m n : Node a E I T} (h : Sub m n) (hn : Honest H n) :
    Honest H m := by
  induction h with
  | refl => exact hn
  | child v c i _ ih => exact ih (hn.2 i)

theorem Sub.leaves_subset {m n : Node a E I T} (h : Sub m n) : leaves m ⊆ leaves n := by
  induction h with
  | refl => exact fun _ h => h
  | child v c i _ ih =>
    intro x hx
    simp only [leaves, List.mem_flatMap]
    exact ⟨i, List.mem_finRange i, ih hx⟩

theorem chunk_length (ha : 0 < a) (l : List T) (hl : l.length % a = 0) (ch : List T)
    (hch : ch ∈ chunks a l) : ch.length = a := by
  obtain ⟨j, hj, rfl⟩ := List.getElem_of_mem hch
  have := chunks_getElem? a ha l j
  rw [List.getElem?_eq_getElem hj] at this
  split at this
  · rename_i hlt
    simp only [Option.some.injEq] at this
    rw [this, List.length_take, List.length_drop]
    obtain ⟨q, hq⟩ := Nat.dvd_of_mod_eq_zero hl
    have : j < q := by
      rw [hq, Nat.mul_comm] at hlt
      exact Nat.lt_of_mul_lt_mul_left hlt
    have h2 : (j + 1) * a ≤ q * a := Nat.mul_le_mul_right _ this
    rw [Nat.add_mul, Nat.one_mul, Nat.mul_comm q] at h2
    omega
  · simp at this

/-- Every value entering an accepted range proof is the value of a node of the tree. -/
theorem range_values_in_tree (H : Hasher E I T) (ha : 0 < a)
    (hinj : ∀ l l' : List T, l.length = a → l'.length = a → H.digest l = H.digest l' → l = l')
    (hne : ∀ l : List T, H.digest l ≠ H.dflt)
    (hsep : ∀ (l : List T) p e, l.length = a → H.digest l ≠ H.digestLeaf p e)
    (root : Node a E I T) (hroot : Honest H root) : ∀ (p : List (List T × List T)) (v w : List T),
    rangeLoop a H p v = .ok w → (∀ x ∈ w, ∃ m, Sub m root ∧ m.value H = x) →
    ∀ x ∈ v, ∃ m, Sub m root ∧ m.value H = x := by
  intro p
  induction p with
  | nil =>
    intro v w h hw
    simp only [rangeLoop, Except.ok.injEq] at h
    rw [h]; exact hw
  | cons y p ih =>
    intro v w h hw x hx
    obtain ⟨l, r⟩ := y
    simp only [rangeLoop] at h
    split at h
    · simp at h
    rename_i hmod
    push Not at hmod
    have hall := ih _ w h hw
    have hxm : x ∈ (chunks a (l ++ v ++ r)).flatten := by
      rw [chunks_flatten a ha]; simp [hx]
    obtain ⟨ch, hch, hxch⟩ := List.mem_flatten.mp hxm
    obtain ⟨m, hm, hmv⟩ := hall (H.digest ch) (List.mem_map.mpr ⟨ch, hch, rfl⟩)
    have hchl := chunk_length ha _ hmod ch hch
    have hmh := hm.honest H hroot
    cases m with
    | empty => exact absurd hmv.symm (hne ch)
    | forgotten _ => exact absurd hmh (by simp [Honest])
    | leaf v' p' e' =>
      have : v' = H.digestLeaf p' e' := hmh
      have hmv' : v' = H.digest ch := hmv
      exact absurd (hmv'.symm.trans this) (hsep ch p' e' hchl)
    | branch v' c =>
      have h1 : v' = digestBranch H c := hmh.1
      have hmv' : v' = H.digest ch := hmv
      have heq : ch = List.ofFn fun i => (c i).value H :=
        hinj _ _ hchl (by simp) (hmv'.symm.trans h1)
      rw [heq, List.mem_ofFn] at hxch
      obtain ⟨i, hi⟩ := hxch
      exact ⟨c i, (Sub.child _ v' c i (.refl _)).trans hm, hi⟩

theorem seqTree_honest (H : Hasher E ℕ T) (L : List E) (h : ℕ) : ∀ b,
    Honest H (seqTree H L h b : Node a E ℕ T) := by
  induction h with
  | zero =>
    intro b
    simp only [seqTree]
    split
    · trivial
    · simp [mkLeaf, Honest]
  | succ h ih =>
    intro b
    simp only [seqTree]
    split
    · trivial
    · exact ⟨rfl, fun i => ih _⟩

theorem seqTree_leaves (H : Hasher E ℕ T) (L : List E) (h : ℕ) : ∀ b p e,
    (p, e) ∈ leaves (seqTree H L h b : Node a E ℕ T) → L[p]? = some e := by
  induction h with
  | zero =>
    intro b p e hm
    simp only [seqTree] at hm
    split at hm
    · simp [leaves] at hm
    · rename_i e' he
      simp only [mkLeaf, leaves, List.mem_singleton, Prod.mk.injEq] at hm
      rw [hm.1, hm.2]; exact he
  | succ h ih =>
    intro b p e hm
    simp only [seqTree] at hm
    split at hm
    · simp [leaves] at hm
    · simp only [mkBranch, leaves, List.mem_flatMap] at hm
      obtain ⟨i, -, hm⟩ := hm
      exact ih _ p e hm

end Verif.Merkle
