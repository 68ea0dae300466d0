import Verif.Merkle.Append

/-! # Range lookups and range proofs -/

namespace Verif.Merkle

variable {a : ℕ} {E I T : Type}

/-- Invariant rule for a loop `for i in s..=r`. -/
theorem foldl_from_to {σ : Type} (s r : ℕ) (hs : s ≤ r + 1) (hr : r < a) (f : σ → Fin a → σ)
    (P : ℕ → σ → Prop) (init : σ) (h0 : P s init)
    (hstep : ∀ i : Fin a, s ≤ i.val → i.val ≤ r → ∀ st, P i.val st → P (i.val + 1) (f st i)) :
    P (r + 1) (((List.finRange a).filter fun i => s ≤ i.val && i.val ≤ r).foldl f init) := by
  have hsplit : ((List.finRange a).filter fun i => decide (s ≤ i.val) && decide (i.val ≤ r)) =
      ((List.finRange a).drop s).filter fun i => decide (i.val ≤ r) := by
    rw [← filter_finRange_eq_drop, List.filter_filter]
    congr 1
    funext i
    rw [Bool.and_comm]
  rw [hsplit]
  obtain ⟨d, hd⟩ : ∃ d, r + 1 = s + d := ⟨r + 1 - s, by omega⟩
  clear hsplit
  induction d generalizing s init with
  | zero =>
    have : ((List.finRange a).drop s).filter (fun i => decide (i.val ≤ r)) = [] := by
      rw [List.filter_eq_nil_iff]
      intro x hx
      obtain ⟨k, hk, rfl⟩ := List.mem_drop_iff_getElem.mp hx
      simp
      omega
    rw [this, List.foldl_nil, hd]
    exact h0
  | succ d ih =>
    have hlt : s < (List.finRange a).length := by simp; omega
    rw [List.drop_eq_getElem_cons hlt, List.filter_cons]
    have : decide (((List.finRange a)[s]).val ≤ r) = true := by simp; omega
    rw [if_pos this, List.foldl_cons]
    apply ih (s + 1) (by omega)
    · have := hstep ⟨s, by omega⟩ (le_refl _) (by show s ≤ r; omega) init h0
      simpa using this
    · intro i hi
      exact hstep i (by omega)
    · omega

/-- Value of the `j`-th node of level `k`. -/
def levelVal (a : ℕ) (H : Hasher E ℕ T) (L : List E) (k j : ℕ) : T :=
  (seqTree H L k (j * a ^ k) : Node a E ℕ T).value H

/-- Left siblings, level by level. -/
def leftBound (a : ℕ) (H : Hasher E ℕ T) (L : List E) (lo h : ℕ) : List (List T) :=
  (List.range h).map fun k => (List.range' (lo / a ^ (k + 1) * a) (lo / a ^ k % a)).map (levelVal a H L k)

/-- Right siblings, level by level. -/
def rightBound (a : ℕ) (H : Hasher E ℕ T) (L : List E) (hi h : ℕ) : List (List T) :=
  (List.range h).map fun k =>
    (List.range' (hi / a ^ k + 1) (a - 1 - hi / a ^ k % a)).map (levelVal a H L k)

theorem take_append_take {α : Type} (L : List α) (s m n : ℕ) :
    (L.drop s).take m ++ (L.drop (s + m)).take n = (L.drop s).take (m + n) := by
  rw [List.take_add, List.drop_drop]

theorem range_seq [NeZero a] (H : Hasher E ℕ T) (L : List E) (lo hi : ℕ) (lb rb : List (Fin a)) :
    ∀ (h q : ℕ) (lOn rOn : Bool),
      (∀ k, k < h → lb[k]? = some (Fin.ofNat a (lo / a ^ k))) →
      (∀ k, k < h → rb[k]? = some (Fin.ofNat a (hi / a ^ k))) →
      (lOn = true → lo / a ^ h = q) → (rOn = true → hi / a ^ h = q) →
      (if lOn then lo else q * a ^ h) < (if rOn then hi + 1 else (q + 1) * a ^ h) →
      (if rOn then hi + 1 else (q + 1) * a ^ h) ≤ L.length →
      rangeLookupInternal H h (seqTree H L h (q * a ^ h)) lb rb lOn rOn =
        .ok (.ok
          (List.range' (if lOn then lo else q * a ^ h)
              ((if rOn then hi + 1 else (q + 1) * a ^ h) - (if lOn then lo else q * a ^ h)),
            (L.drop (if lOn then lo else q * a ^ h)).take
              ((if rOn then hi + 1 else (q + 1) * a ^ h) - (if lOn then lo else q * a ^ h)))
          ⟨if lOn then leftBound a H L lo h else [], if rOn then rightBound a H L hi h else []⟩) := by
  intro h
  induction h with
  | zero =>
    intro q lOn rOn _ _ hl hr hlt hle
    simp only [pow_zero, Nat.div_one, Nat.mul_one] at *
    have e1 : (if lOn = true then lo else q) = q := by split <;> simp_all
    have e2 : (if rOn = true then hi + 1 else q + 1) = q + 1 := by split <;> simp_all
    rw [e1, e2] at hlt
    rw [e2] at hle
    rw [e1, e2]
    have hq : q < L.length := by omega
    rw [seqTree_leaf H L q L[q] (List.getElem?_eq_getElem hq)]
    simp only [mkLeaf, rangeLookupInternal, leftBound, rightBound, List.range_zero, List.map_nil,
      ite_self, Nat.add_sub_cancel_left]
    rw [List.drop_eq_getElem_cons hq, List.take_succ_cons, List.take_zero, List.range'_one]
  | succ h ih =>
    intro q lOn rOn hlb hrb hl hr hlt hle
    have ha : 0 < a := Nat.pos_of_ne_zero (NeZero.ne a)
    have hA := pow_pos' (a := a) h
    set s := (if lOn = true then lo else q * a ^ (h + 1)) with hs
    set e := (if rOn = true then hi + 1 else (q + 1) * a ^ (h + 1)) with he
    set l : ℕ := if lOn then lo / a ^ h % a else 0 with hldef
    set r : ℕ := if rOn then hi / a ^ h % a else a - 1 with hrdef
    have hla : l < a := by simp only [hldef]; split; exact Nat.mod_lt _ ha; exact ha
    have hra : r < a := by simp only [hrdef]; split; exact Nat.mod_lt _ ha; omega
    have hqa : ∀ i, (q * a + i) * a ^ h = q * a ^ (h + 1) + i * a ^ h := by
      intro i; rw [pow_succ]; ring
    have hq1 : (q + 1) * a ^ (h + 1) = q * a ^ (h + 1) + a * a ^ h := by rw [pow_succ]; ring
    -- position of the bounds
    have hlo : lOn = true → lo / a ^ h = q * a + l := by
      intro hon
      have h1 := hl hon
      simp only [hldef, hon, if_true]
      rw [← h1, pow_succ, ← Nat.div_div_eq_div_mul, Nat.mul_comm]
      exact (Nat.div_add_mod _ _).symm
    have hhi : rOn = true → hi / a ^ h = q * a + r := by
      intro hon
      have h1 := hr hon
      simp only [hrdef, hon, if_true]
      rw [← h1, pow_succ, ← Nat.div_div_eq_div_mul, Nat.mul_comm]
      exact (Nat.div_add_mod _ _).symm
    have hloB : lOn = true → q * a ^ (h + 1) + l * a ^ h ≤ lo ∧ lo < q * a ^ (h + 1) + l * a ^ h + a ^ h := by
      intro hon
      have h1 := hlo hon
      have h2 := Nat.div_add_mod lo (a ^ h)
      have h3 := Nat.mod_lt lo hA
      rw [h1, Nat.mul_comm, hqa] at h2
      generalize lo % a ^ h = z at h2 h3
      omega
    have hhiB : rOn = true → q * a ^ (h + 1) + r * a ^ h ≤ hi ∧ hi < q * a ^ (h + 1) + r * a ^ h + a ^ h := by
      intro hon
      have h1 := hhi hon
      have h2 := Nat.div_add_mod hi (a ^ h)
      have h3 := Nat.mod_lt hi hA
      rw [h1, Nat.mul_comm, hqa] at h2
      generalize hi % a ^ h = z at h2 h3
      omega
    have hlr : l ≤ r := by
      cases hlon : lOn with
      | false => simp [hldef, hlon]
      | true =>
        cases hron : rOn with
        | false => simp only [hrdef, hron]; simp; omega
        | true =>
          have h1 := hlo hlon
          have h2 := hhi hron
          have : lo / a ^ h ≤ hi / a ^ h := Nat.div_le_div_right (by simp [hs, he, hlon, hron] at hlt; omega)
          omega
    have hsl : q * a ^ (h + 1) + l * a ^ h ≤ s ∧ s < q * a ^ (h + 1) + l * a ^ h + a ^ h := by
      cases hlon : lOn with
      | false => simp [hs, hldef, hlon]; exact hA
      | true => have := hloB hlon; simp only [hs, hlon, if_true]; exact this
    have her : q * a ^ (h + 1) + r * a ^ h < e ∧ e ≤ q * a ^ (h + 1) + r * a ^ h + a ^ h := by
      cases hron : rOn with
      | false =>
        have hr' : r = a - 1 := by simp [hrdef, hron]
        have : (a - 1) * a ^ h + a ^ h = a * a ^ h := by
          conv_rhs => rw [show a = a - 1 + 1 by omega, Nat.add_mul, Nat.one_mul]
          rw [show a - 1 + 1 = a by omega]
        simp only [he, hron, hr', Bool.false_eq_true, if_false, hq1]
        omega
      | true => have := hhiB hron; simp only [he, hron, if_true]; omega
    have hsL : q * a ^ (h + 1) < L.length := by omega
    have hloop := foldl_from_to (a := a) l r (by omega) hra
      (rangeStep (fun i lf rf => rangeLookupInternal H h
        (seqTree H L h (q * a ^ (h + 1) + i.val * a ^ h)) lb rb lf rf) lOn rOn l r)
      (fun i st => st = .ok (.ok
        { indices := List.range' s (min (q * a ^ (h + 1) + i * a ^ h) e - s)
          elements := (L.drop s).take (min (q * a ^ (h + 1) + i * a ^ h) e - s)
          proof := ⟨if lOn && decide (l < i) then leftBound a H L lo h else [],
            if rOn && decide (r < i) then rightBound a H L hi h else []⟩ } ()))
      (.ok (.ok ⟨[], [], ⟨[], []⟩⟩ ()))
      (by
        have e1 : min (q * a ^ (h + 1) + l * a ^ h) e - s = 0 := by omega
        have e2 : decide (l < l) = false := by simp
        have e3 : decide (r < l) = false := by simp; omega
        rw [e1, e2, e3]; simp)
      (by
        intro i hi1 hi2 st hst
        subst hst
        simp only [rangeStep]
        have him : i.val * a ^ h ≤ r * a ^ h := Nat.mul_le_mul_right _ hi2
        have hil : l * a ^ h ≤ i.val * a ^ h := Nat.mul_le_mul_right _ hi1
        have hi1m : (i.val + 1) * a ^ h = i.val * a ^ h + a ^ h := by ring
        have hlt_l : l < i.val → l * a ^ h + a ^ h ≤ i.val * a ^ h := by
          intro hh
          have : (l + 1) * a ^ h ≤ i.val * a ^ h := Nat.mul_le_mul_right _ hh
          rw [Nat.add_mul, Nat.one_mul] at this; exact this
        have hlt_r : i.val < r → i.val * a ^ h + a ^ h ≤ r * a ^ h := by
          intro hh
          have : (i.val + 1) * a ^ h ≤ r * a ^ h := Nat.mul_le_mul_right _ hh
          rw [Nat.add_mul, Nat.one_mul] at this; exact this
        have hb := hqa i.val
        have hb1 : (q * a + i.val + 1) * a ^ h = q * a ^ (h + 1) + i.val * a ^ h + a ^ h := by
          rw [Nat.add_mul, hb, Nat.one_mul]
        -- bounds of the child
        have hsi : (if (lOn && i.val == l) = true then lo else (q * a + i.val) * a ^ h) =
            if i.val = l then s else q * a ^ (h + 1) + i.val * a ^ h := by
          rw [hb]
          cases hlon : lOn with
          | false =>
            have : l = 0 := by simp [hldef, hlon]
            simp only [hs, hlon, Bool.false_and, Bool.false_eq_true, if_false]
            split
            · rename_i hil'; rw [hil', this]; simp
            · rfl
          | true =>
            simp [hs, hlon]
        have hei : (if (rOn && i.val == r) = true then hi + 1 else (q * a + i.val + 1) * a ^ h) =
            min (q * a ^ (h + 1) + (i.val + 1) * a ^ h) e := by
          rw [hb1, hi1m]
          by_cases hir : i.val = r
          · have hmin : min (q * a ^ (h + 1) + (i.val * a ^ h + a ^ h)) e = e := by rw [hir]; omega
            rw [hmin]
            cases hron : rOn with
            | false =>
              have hr' : r = a - 1 := by simp [hrdef, hron]
              have : (a - 1) * a ^ h + a ^ h = a * a ^ h := by
                conv_rhs => rw [show a = a - 1 + 1 by omega, Nat.add_mul, Nat.one_mul]
                rw [show a - 1 + 1 = a by omega]
              simp only [he, hron, Bool.false_and, Bool.false_eq_true, if_false, hq1]
              rw [hir, hr']; omega
            | true => simp [he, hron, hir]
          · have hlt2 := hlt_r (by omega)
            have : (rOn && i.val == r) = false := by simp [hir]
            rw [this]
            simp only [Bool.false_eq_true, if_false]
            omega
        have hrec := ih (q * a + i.val) (lOn && i.val == l) (rOn && i.val == r)
          (fun k hk => hlb k (by omega)) (fun k hk => hrb k (by omega))
          (by
            intro hon
            simp only [Bool.and_eq_true, beq_iff_eq] at hon
            rw [hlo hon.1, hon.2])
          (by
            intro hon
            simp only [Bool.and_eq_true, beq_iff_eq] at hon
            rw [hhi hon.1, hon.2])
          (by
            rw [hsi, hei, hi1m]
            split
            · omega
            · omega)
          (by rw [hei]; omega)
        rw [hsi, hei, hb] at hrec
        rw [hrec]
        simp only
        have hcat : s + (min (q * a ^ (h + 1) + i.val * a ^ h) e - s) =
            if i.val = l then s else q * a ^ (h + 1) + i.val * a ^ h := by
          split
          · rename_i hil'; rw [hil']; omega
          · have := hlt_l (by omega); omega
        have hsum : (min (q * a ^ (h + 1) + i.val * a ^ h) e - s) +
            (min (q * a ^ (h + 1) + (i.val + 1) * a ^ h) e -
              (if i.val = l then s else q * a ^ (h + 1) + i.val * a ^ h)) =
            min (q * a ^ (h + 1) + (i.val + 1) * a ^ h) e - s := by
          rw [hi1m]
          split
          · rename_i hil'; rw [hil']; omega
          · have := hlt_l (by omega); omega
        congr 3
        · rw [← hcat]
          rw [← hcat] at hsum
          rw [List.range'_append_1, hsum]
        · rw [← hcat]
          rw [← hcat] at hsum
          rw [take_append_take, hsum]
        · congr 1
          · cases lOn with
            | false => simp
            | true =>
              by_cases hil' : i.val = l
              · simp [hil']
              · have : (i.val == l) = false := by simpa using hil'
                have h2 : decide (l < i.val) = true := by simp; omega
                have h3 : decide (l < i.val + 1) = true := by simp; omega
                simp [this, h2, h3]
          · cases rOn with
            | false => simp
            | true =>
              by_cases hir : i.val = r
              · simp [hir]
              · have : (i.val == r) = false := by simpa using hir
                have h2 : decide (r < i.val) = false := by simp; omega
                have h3 : decide (r < i.val + 1) = false := by simp; omega
                simp [this, h2, h3])
    rw [seqTree_branch H L h _ hsL]
    have hl? : (if lOn = true then Option.map Fin.val lb[h]? else some 0) = some l := by
      cases lOn with
      | false => simp [hldef]
      | true => simp [hldef, hlb h (by omega), Fin.ofNat]
    have hr? : (if rOn = true then Option.map Fin.val rb[h]? else some (a - 1)) = some r := by
      cases rOn with
      | false => simp [hrdef]
      | true => simp [hrdef, hrb h (by omega), Fin.ofNat]
    simp only [mkBranch, rangeLookupInternal, hl?, hr?]
    rw [hloop]
    simp only [rangeFinish]
    have hmin : min (q * a ^ (h + 1) + (r + 1) * a ^ h) e = e := by
      rw [Nat.add_mul, Nat.one_mul]; omega
    rw [hmin]
    have hvals : (List.ofFn fun i : Fin a =>
        (seqTree H L h (q * a ^ (h + 1) + i.val * a ^ h) : Node a E ℕ T).value H) =
          (List.range' (q * a) a).map (levelVal a H L h) := by
      apply List.ext_getElem
      · simp
      · intro j h1 h2
        simp only [List.getElem_ofFn, List.getElem_map, List.getElem_range', levelVal, Nat.one_mul, hqa]
    rw [hvals]
    congr 3
    · cases hlon : lOn with
      | false => simp
      | true =>
        have h2 : decide (l < r + 1) = true := by simp; omega
        simp only [h2, Bool.and_self, if_true, leftBound, List.range_succ, List.map_append,
          List.map_cons, List.map_nil]
        congr 2
        have : lo / a ^ h % a = l := by simp [hldef, hlon]
        rw [← List.map_take, hl hlon, this]
        congr 1
        apply List.ext_getElem
        · simp; omega
        · intro j h1 h2'; simp
    · cases hron : rOn with
      | false => simp
      | true =>
        have h2 : decide (r < r + 1) = true := by simp
        simp only [h2, Bool.and_self, if_true, rightBound, List.range_succ, List.map_append,
          List.map_cons, List.map_nil]
        congr 2
        rw [← List.map_drop, List.drop_range', hhi hron]
        have : (q * a + r) % a = r := by rw [Nat.mul_comm, Nat.mul_add_mod, Nat.mod_eq_of_lt hra]
        rw [this]
        congr 2
        · omega
        · omega

end Verif.Merkle
