import Verif.Plonk.Finalize

/-!
# The coset representatives
-/

set_option linter.unusedSectionVars false

namespace Verif.Plonk

open Verif.Circuit Verif.Pcs

variable {p : ℕ} [Fact p.Prime]

/-- the loop without division -/
def cosetLoop' (N : ℕ) : List (ZMod p) → ℕ → List (ZMod p) → Except CErr (List (ZMod p))
  | _, 0, ks => .ok ks
  | [], _ + 1, _ => .error .panic
  | x :: rnd, m + 1, ks =>
    if x ^ N = 0 then .error .panic
    else if ks.any (fun k => k ^ N = x ^ N) then cosetLoop' N rnd (m + 1) ks
    else cosetLoop' N rnd m (ks ++ [x])

theorem cosetLoop_eq (N : ℕ) : ∀ (rnd : List (ZMod p)) (m : ℕ) (ks : List (ZMod p)),
    cosetLoop N rnd m ks = cosetLoop' N rnd m ks := by
  intro rnd
  induction rnd with
  | nil => intro m ks; cases m <;> rfl
  | cons x rnd ih =>
    intro m ks
    cases m with
    | zero => rfl
    | succ m =>
      unfold cosetLoop cosetLoop'
      by_cases h0 : x ^ N = 0
      · rw [if_pos h0, if_pos h0]
      · rw [if_neg h0, if_neg h0]
        have : ks.any (fun k => (x ^ N)⁻¹ * k ^ N = 1) = ks.any (fun k => k ^ N = x ^ N) := by
          congr 1
          funext k
          rw [decide_eq_decide, inv_mul_eq_one₀ h0]
          exact eq_comm
        rw [this, ih, ih]

/-- distinct cosets -/
def Distinct (N : ℕ) (ks : List (ZMod p)) : Prop :=
  (∀ k ∈ ks, k ^ N ≠ 0) ∧ ks.Pairwise (fun a b => a ^ N ≠ b ^ N)

theorem cosetLoop_distinct (N : ℕ) : ∀ (rnd : List (ZMod p)) (m : ℕ) (ks res : List (ZMod p)),
    cosetLoop N rnd m ks = .ok res → Distinct N ks → Distinct N res ∧ res.length = ks.length + m := by
  intro rnd m ks res h
  rw [cosetLoop_eq] at h
  revert h
  induction rnd generalizing m ks with
  | nil =>
    intro h hd
    cases m with
    | zero => unfold cosetLoop' at h; injection h with h; subst h; exact ⟨hd, rfl⟩
    | succ m => unfold cosetLoop' at h; cases h
  | cons x rnd ih =>
    intro h hd
    cases m with
    | zero => unfold cosetLoop' at h; injection h with h; subst h; exact ⟨hd, rfl⟩
    | succ m =>
      unfold cosetLoop' at h
      split at h
      · cases h
      · rename_i h0
        split at h
        · exact ih _ _ h hd
        · rename_i hany
          obtain ⟨h1, h2⟩ := ih _ _ h (by
            refine ⟨?_, ?_⟩
            · intro k hk
              rcases List.mem_append.1 hk with hk | hk
              · exact hd.1 k hk
              · rw [List.mem_singleton.1 hk]; exact h0
            · rw [List.pairwise_append]
              refine ⟨hd.2, List.pairwise_singleton _ _, ?_⟩
              intro a ha b hb
              rw [List.mem_singleton.1 hb]
              intro he
              exact hany (List.any_eq_true.2 ⟨a, ha, by simpa using he⟩))
          refine ⟨h1, ?_⟩
          rw [h2, List.length_append, List.length_singleton]
          omega

theorem cosetReps_distinct {rnd : List (ZMod p)} {num N : ℕ} {ks : List (ZMod p)}
    (h : cosetReps rnd num N = .ok ks) : Distinct N ks ∧ ks.length = num := by
  unfold cosetReps at h
  cases num with
  | zero => injection h with h; subst h; exact ⟨⟨by simp, List.Pairwise.nil⟩, rfl⟩
  | succ m =>
    obtain ⟨h1, h2⟩ := cosetLoop_distinct N rnd m [1] ks h ⟨by simp, List.pairwise_singleton _ _⟩
    refine ⟨h1, ?_⟩
    rw [h2, List.length_singleton]
    omega

/-- the representatives without division -/
def cosetReps' (rnd : List (ZMod p)) (num N : ℕ) : Except CErr (List (ZMod p)) :=
  match num with
  | 0 => .ok []
  | m + 1 => cosetLoop' N rnd m [1]

theorem cosetReps_eq (rnd : List (ZMod p)) (num N : ℕ) :
    cosetReps rnd num N = cosetReps' rnd num N := by
  cases num with
  | zero => rfl
  | succ m => exact cosetLoop_eq N rnd m [1]

/-- finalization without division, for evaluation -/
def finalize' (S : ℕ) (root : ZMod p) (rnd : List (ZMod p)) (c : Circ p) : Except CErr (FCirc p) :=
  match newDomain S root (numSlots c) with
  | none => .error .domainCreation
  | some dom =>
    if dom.size = 1 then .error .unfinalized
    else
      match rearrangeGates (padCirc c dom.size) with
      | .error e => .error e
      | .ok c' =>
        match wirePermutation c' with
        | .error e => .error e
        | .ok perm =>
          match cosetReps' rnd (numWireTypes c') dom.size with
          | .error e => .error e
          | .ok ks => .ok ⟨c', dom, perm, extIdPermutation ks dom⟩

theorem finalize_eq (S : ℕ) (root : ZMod p) (rnd : List (ZMod p)) (c : Circ p) :
    finalize S root rnd c = finalize' S root rnd c := by
  unfold finalize finalize'
  simp only [cosetReps_eq]
  rfl

/-- a result satisfies a decidable predicate -/
def okAnd {ε α : Type} (r : Except ε α) (P : α → Bool) : Bool :=
  match r with
  | .ok x => P x
  | .error _ => false

theorem okAnd_elim {ε α : Type} {r : Except ε α} {P : α → Bool} (h : okAnd r P = true) :
    ∃ x, r = .ok x ∧ P x = true := by
  unfold okAnd at h
  split at h
  · rename_i x; exact ⟨x, rfl, h⟩
  · cases h

end Verif.Plonk
