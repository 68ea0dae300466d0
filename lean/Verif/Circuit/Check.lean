import Verif.Circuit.Indep

/-!
# The executable satisfiability check decides `Sat`
-/

namespace Verif.Circuit

variable {p : ℕ}

theorem forM_ok {α : Type} (l : List α) (f : α → Except CErr Unit) :
    l.forM f = .ok () ↔ ∀ x ∈ l, f x = .ok () := by
  induction l with
  | nil => exact ⟨fun _ x hx => (by simp at hx), fun _ => rfl⟩
  | cons a l ih =>
    have : (a :: l).forM f = (f a >>= fun _ => l.forM f) := rfl
    rw [this]
    rcases ha : f a with e | u
    · constructor
      · intro h; cases h
      · intro h; have := h a (by simp); rw [ha] at this; cases this
    · change l.forM f = _ ↔ _
      rw [ih]
      constructor
      · intro h x hx
        rcases List.mem_cons.1 hx with rfl | hx
        · exact ha
        · exact h x hx
      · intro h x hx; exact h x (by simp [hx])

theorem except_bind_ok {α β : Type} {x : Except CErr α} {f : α → Except CErr β} {y : β} :
    (x >>= f) = .ok y ↔ ∃ u, x = .ok u ∧ f u = .ok y := by
  cases x with
  | error e =>
    constructor
    · intro h; cases h
    · rintro ⟨u, h, _⟩; cases h
  | ok u =>
    constructor
    · intro h; exact ⟨u, rfl, h⟩
    · rintro ⟨v, h, h'⟩; cases h; exact h'

theorem checkGate_ok {c : Circ p} {g : ℕ} {x : ZMod p} :
    checkGate c g x = .ok () ↔ ∃ r, c.rows[g]? = some r ∧ r.Holds x c.val := by
  unfold checkGate
  rcases h : c.rows[g]? with _ | r
  · simp
  · simp only [Option.some.injEq, exists_eq_left']
    split <;> simp [*]

theorem checkIo_ok {c : Circ p} (hc : WF c) {pi : List (ZMod p)}
    : checkIo c pi = .ok () ↔
      ∀ (i g : ℕ) (x : ZMod p) (r : Row p), c.pubIds[i]? = some g → pi[i]? = some x →
        c.rows[g]? = some r → r.Holds x c.val := by
  unfold checkIo
  rw [forM_ok]
  constructor
  · intro h i g x r h1 h2 h3
    have hm : (g, x) ∈ c.pubIds.zip pi := by
      apply List.mem_of_getElem? (i := i)
      rw [List.getElem?_zip_eq_some]; exact ⟨h1, h2⟩
    obtain ⟨r', hr', hh⟩ := checkGate_ok.1 (h _ hm)
    rw [hr'] at h3; cases h3; exact hh
  · rintro h ⟨g, x⟩ hm
    obtain ⟨i, hi⟩ := List.mem_iff_getElem?.1 hm
    rw [List.getElem?_zip_eq_some] at hi
    obtain ⟨r, hr, _⟩ := hc.pub g (List.mem_of_getElem? hi.1)
    exact checkGate_ok.2 ⟨r, hr, h i g x r hi.1 hi.2 hr⟩

theorem checkPlain_ok {c : Circ p} : checkPlain c = .ok () ↔
    ∀ r ∈ c.rows, r.sel.io = false → r.Holds 0 c.val := by
  unfold checkPlain
  rw [forM_ok]
  constructor
  · intro h r hr hio
    obtain ⟨i, hi, rfl⟩ := List.mem_iff_getElem.1 hr
    have := h i (by simpa using hi)
    rw [List.getElem?_eq_getElem hi] at this
    simp only [hio, Bool.false_eq_true, if_false] at this
    obtain ⟨r', hr', hh⟩ := checkGate_ok.1 this
    rw [List.getElem?_eq_getElem hi] at hr'
    cases hr'; exact hh
  · intro h i hi
    have hi : i < c.rows.length := by simpa using hi
    rw [List.getElem?_eq_getElem hi]
    simp only
    split
    · rfl
    · rename_i hio
      exact checkGate_ok.2 ⟨_, List.getElem?_eq_getElem hi, h _ (List.getElem_mem hi) (by simpa using hio)⟩

theorem checkRanges_ok {c : Circ p} {k : ℕ} (hk : c.ultra = some k) : checkRanges c = .ok () ↔
    ∀ v ∈ c.rangeVars, (c.val v).val < rangeBound p k := by
  unfold checkRanges
  rw [forM_ok]
  have key : ∀ i (hi : i < c.rangeVars.length), checkRangeGate c i = .ok () ↔
      (c.val c.rangeVars[i]).val < rangeBound p k := by
    intro i hi
    unfold checkRangeGate
    rw [hk, List.getElem?_eq_getElem hi]
    simp only
    split
    · rename_i h; simp only [reduceCtorEq, false_iff]; omega
    · rename_i h; simp only [true_iff]; omega
  constructor
  · intro h v hv
    obtain ⟨i, hi, rfl⟩ := List.mem_iff_getElem.1 hv
    exact (key i hi).1 (h i (by simpa using hi))
  · intro h i hi
    have hi : i < c.rangeVars.length := by simpa using hi
    exact (key i hi).2 (h _ (List.getElem_mem hi))

theorem checkLookups_ok {c : Circ p} : checkLookups c = .ok () ↔
    ∀ r ∈ c.rows, r.sel.lookup ≠ 0 → r.lookupTuple c.val ∈ c.keyValTable c.val := by
  unfold checkLookups
  rw [forM_ok]
  constructor
  · intro h r hr hl
    have := h r hr
    rw [if_pos hl] at this
    by_contra hcon
    rw [if_neg hcon] at this
    cases this
  · intro h r hr
    split
    · rename_i hl
      rw [if_pos (h r hr hl)]
    · rfl

theorem checkSat_ok {c : Circ p} (hc : WF c) (pi : List (ZMod p)) :
    checkSat c pi = .ok () ↔ Sat c pi c.val := by
  unfold checkSat
  split
  · rename_i h
    constructor
    · intro h'; cases h'
    · intro h'; exact absurd h'.len h
  · rename_i hl
    have hl : pi.length = c.pubIds.length := by simpa using hl
    rw [except_bind_ok]
    constructor
    · rintro ⟨_, h1, h2⟩
      obtain ⟨_, h2, h3⟩ := except_bind_ok.1 h2
      have a1 := (checkIo_ok hc).1 h1
      have a2 := checkPlain_ok.1 h2
      rcases hu : c.ultra with _ | k
      · have hno : ∀ k, c.ultra ≠ some k := by simp [hu]
        exact ⟨hl, a1, a2, fun k hk => absurd hk (hno k), fun k hk => absurd hk (hno k)⟩
      · rw [hu] at h3
        obtain ⟨_, h3, h4⟩ := except_bind_ok.1 h3
        have a3 := (checkRanges_ok hu).1 h3
        refine ⟨hl, a1, a2, ?_, fun _ _ => checkLookups_ok.1 h4⟩
        intro k' hk
        rw [hu] at hk; cases hk; exact a3
    · intro h
      refine ⟨(), (checkIo_ok hc).2 h.io, ?_⟩
      refine except_bind_ok.2 ⟨(), checkPlain_ok.2 h.plain, ?_⟩
      rcases hu : c.ultra with _ | k
      · rfl
      · exact except_bind_ok.2 ⟨(), (checkRanges_ok hu).2 (h.range k hu),
          checkLookups_ok.2 (h.lookup k hu)⟩

end Verif.Circuit
