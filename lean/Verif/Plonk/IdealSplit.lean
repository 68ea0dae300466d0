import Verif.Plonk.ProverTotal

/-!
# The parts of the quotient without the checks

The prover refuses a quotient of the wrong degree, and a zero randomizer or a zero highest coefficient of a part makes
it panic.  `idealSplit` masks the parts in the same way and never fails; it is used to count the randomness of the
prover.
-/

set_option linter.unusedSectionVars false

namespace Verif.Plonk

open Verif.Pcs Polynomial Verif.Props.Verifier

variable {F G G2 : Type} [Field F] [DecidableEq F] [AddCommGroup G] [Module F G] [DecidableEq G]
  [AddCommGroup G2] [Module F G2] [DecidableEq G2]

/-- zeros are appended up to the length `k` -/
def padTo (k : ℕ) (l : List F) : List F := l ++ List.replicate (k - l.length) 0

/-- the constant coefficient is decreased -/
def subHead (a : F) : List F → List F
  | [] => [-a]
  | c :: p => (c - a) :: p

/-- the masked parts, without checks -/
def maskAll (n : ℕ) : (ℕ → F) → F → List (List F) → List (List F)
  | _, _, [] => []
  | _, last, [p] => [subHead last p]
  | rnd, last, p :: q :: ps =>
    (subHead last (padTo (n + 2) p) ++ [rnd 0]) :: maskAll n (fun i => rnd (i + 1)) (rnd 0) (q :: ps)

/-- the parts of the quotient before they are masked -/
def chunks (n nw : ℕ) (t : List F) : List (List F) :=
  (List.range nw).map (fun i => norm (if i < nw - 1 then (t.drop (i * (n + 2))).take (n + 2) else t.drop (i * (n + 2))))

/-- the splitting of the quotient without checks -/
def idealSplit (n nw : ℕ) (rnd : ℕ → F) (t : List F) : Except PErr (List (List F)) :=
  .ok (maskAll n rnd 0 (chunks n nw t))

theorem toPoly_padTo (k : ℕ) (l : List F) : toPoly (padTo k l) = toPoly l := by
  ext i
  rw [toPoly_coeff, toPoly_coeff]
  unfold padTo
  rw [List.getD_eq_getElem?_getD, List.getD_eq_getElem?_getD, List.getElem?_append]
  split
  · rfl
  · rename_i h
    rw [List.getElem?_eq_none (by omega : l.length ≤ i), List.getElem?_replicate]
    split <;> rfl

theorem toPoly_subHead (a : F) (l : List F) : toPoly (subHead a l) = toPoly l - C a := by
  cases l with
  | nil => simp [subHead, toPoly_cons, toPoly_nil]
  | cons c p =>
    simp only [subHead, toPoly_cons, C_sub]
    ring

theorem subHead_length (a : F) (l : List F) : (subHead a l).length = max l.length 1 := by
  cases l <;> simp [subHead]

/-- where the prover succeeds the parts are the same -/
theorem maskAll_of_ok {n : ℕ} : ∀ {ps : List (List F)} {rnd : ℕ → F} {last : F} {l : List (List F)},
    maskParts n rnd last ps = .ok l → maskAll n rnd last ps = l := by
  intro ps
  induction ps with
  | nil => intro rnd last l h; rw [maskParts] at h; rw [← Except.ok.inj h]; rfl
  | cons p ps ih =>
    intro rnd last l h
    obtain _ | ⟨c, p⟩ := p
    · rw [maskParts] at h; cases h
    obtain _ | ⟨q, ps⟩ := ps
    · rw [maskParts] at h
      rw [← Except.ok.inj h]
      rfl
    · rw [maskParts] at h
      split at h
      · cases h
      rename_i hc
      rw [not_or, not_not] at hc
      cases hm : maskParts n (fun i => rnd (i + 1)) (rnd 0) (q :: ps) with
      | error e => rw [hm] at h; cases h
      | ok m =>
        rw [hm] at h
        rw [← Except.ok.inj h, maskAll, ih hm]
        have e : padTo (n + 2) (c :: p) = c :: p := by
          unfold padTo
          rw [List.length_cons, hc.1]
          simp
        rw [e]
        rfl

theorem maskAll_get {n : ℕ} : ∀ {ps : List (List F)} (rnd : ℕ → F) (last : F),
    (∀ i, i + 1 < ps.length → (ps.getD i []).length ≤ n + 2) → (maskAll n rnd last ps).length = ps.length ∧
      ∀ i < ps.length, toPoly ((maskAll n rnd last ps).getD i []) =
        toPoly (ps.getD i []) + (if i + 1 < ps.length then C (rnd i) * X ^ (n + 2) else 0) -
          C (if i = 0 then last else rnd (i - 1)) ∧
        ((maskAll n rnd last ps).getD i []).length ≤ max (n + 3) (ps.getD i []).length := by
  intro ps
  induction ps with
  | nil => intro rnd last _; simp [maskAll]
  | cons p ps ih =>
    intro rnd last h
    obtain _ | ⟨q, ps⟩ := ps
    · refine ⟨rfl, fun i hi => ?_⟩
      obtain rfl : i = 0 := by simpa using hi
      simp only [maskAll, List.getD_cons_zero, toPoly_subHead, subHead_length]
      simp
      omega
    · obtain ⟨h1, h2⟩ := ih (fun i => rnd (i + 1)) (rnd 0) (fun i hi => by
        have := h (i + 1) (by simpa using hi)
        simpa using this)
      have hp : p.length ≤ n + 2 := by
        have := h 0 (by simp)
        simpa using this
      rw [maskAll]
      refine ⟨by simp [h1], fun i hi => ?_⟩
      have hl : (subHead last (padTo (n + 2) p)).length = n + 2 := by
        rw [subHead_length]
        unfold padTo
        simp
        omega
      obtain _ | i := i
      · rw [List.getD_cons_zero, List.getD_cons_zero, if_pos (by simp), if_pos rfl, toPoly_append, toPoly_subHead,
          toPoly_padTo, hl]
        refine ⟨?_, ?_⟩
        · simp only [toPoly_cons, toPoly_nil]
          ring
        · rw [List.length_append, hl]
          simp
      · rw [List.getD_cons_succ, List.getD_cons_succ]
        obtain ⟨h3, h4⟩ := h2 i (by simpa using hi)
        refine ⟨?_, h4⟩
        rw [h3]
        have e : (i + 1 < (q :: ps).length) = (i + 1 + 1 < (p :: q :: ps).length) := by simp
        simp only [e]
        obtain _ | i := i <;> simp

theorem maskAll_combine {n : ℕ} : ∀ {ps : List (List F)} (rnd : ℕ → F) (last : F), ps ≠ [] →
    (∀ i, i + 1 < ps.length → (ps.getD i []).length ≤ n + 2) →
    combine (X ^ (n + 2)) ((maskAll n rnd last ps).map toPoly) = combine (X ^ (n + 2)) (ps.map toPoly) - C last := by
  intro ps
  induction ps with
  | nil => intro rnd last h; exact absurd rfl h
  | cons p ps ih =>
    intro rnd last _ h
    obtain _ | ⟨q, ps⟩ := ps
    · simp [maskAll, combine, toPoly_subHead]
    · have hp : p.length ≤ n + 2 := by
        have := h 0 (by simp)
        simpa using this
      have hl : (subHead last (padTo (n + 2) p)).length = n + 2 := by
        rw [subHead_length]
        unfold padTo
        simp
        omega
      rw [maskAll, List.map_cons, combine, ih (fun i => rnd (i + 1)) (rnd 0) (by simp) (fun i hi => by
        have := h (i + 1) (by simpa using hi)
        simpa using this), List.map_cons (a := p), combine, toPoly_append, toPoly_subHead, toPoly_padTo, hl,
        toPoly_cons, toPoly_nil]
      ring

theorem chunks_length (n nw : ℕ) (t : List F) : (chunks n nw t).length = nw := by simp [chunks]

theorem chunks_getD {n nw : ℕ} (t : List F) {i : ℕ} (hi : i < nw) : (chunks n nw t).getD i [] =
    norm (if i < nw - 1 then (t.drop (i * (n + 2))).take (n + 2) else t.drop (i * (n + 2))) := by
  unfold chunks
  rw [List.getD_eq_getElem?_getD, List.getElem?_map, List.getElem?_range hi]
  rfl

theorem chunks_short {n nw : ℕ} (t : List F) {i : ℕ} (hi : i + 1 < (chunks n nw t).length) :
    ((chunks n nw t).getD i []).length ≤ n + 2 := by
  rw [chunks_length] at hi
  rw [chunks_getD t (by omega), if_pos (by omega)]
  exact (norm_length_le _).trans (by simp)

/-- the ideal splitting is one that the prover can use -/
theorem idealSplit_splits (d : Domain F) {nw : ℕ} (hnw : 5 ≤ nw) (rnd : ℕ → F) :
    Splits d nw (idealSplit d.size nw rnd) := by
  intro q ts h hq hle
  obtain rfl := Except.ok.inj h
  obtain ⟨k, rfl⟩ : ∃ k, nw = k + 1 := ⟨nw - 1, by omega⟩
  obtain ⟨h1, h2⟩ := maskAll_get rnd 0 (fun i hi => chunks_short (n := d.size) (nw := k + 1) q hi)
  rw [chunks_length] at h1 h2
  refine ⟨?_, ?_, ?_⟩
  · intro h0
    rw [h0] at h1
    simp at h1
  · unfold joinQuot
    rw [maskAll_combine rnd 0 (by intro h0; have := chunks_length d.size (k + 1) q; rw [h0] at this; simp at this)
      (fun i hi => chunks_short q hi), C_0, sub_zero, ← combine_chunks (d.size + 2) k q]
    unfold chunks
    rw [List.map_map]
    rfl
  · intro t ht
    obtain ⟨i, hi, rfl⟩ := List.mem_iff_getElem.1 ht
    rw [h1] at hi
    obtain ⟨-, h3⟩ := h2 i hi
    rw [List.getD_eq_getElem?_getD, List.getElem?_eq_getElem (by omega), Option.getD_some] at h3
    refine h3.trans (max_le le_rfl ?_)
    by_cases hk : i < k
    · exact (chunks_short q (by rw [chunks_length]; omega)).trans (by omega)
    · obtain rfl : i = k := by omega
      rw [chunks_getD q (by omega), if_neg (by omega)]
      refine (norm_length_le _).trans ?_
      rw [List.length_drop]
      rw [hq] at hle
      unfold Pcs.degree at hle
      have e1 : (i + 1) * (d.size + 1) + 2 + i = i * (d.size + 2) + d.size + 3 := by ring
      omega

/-- where the prover splits the quotient the ideal splitting is the same -/
theorem idealSplit_of_ok {n nw : ℕ} {rnd : ℕ → F} {t : List F} {ts : List (List F)}
    (h : splitQuot n nw rnd t = .ok ts) : idealSplit n nw rnd t = .ok ts := by
  unfold splitQuot at h
  split at h
  · cases h
  split at h
  · cases h
  unfold idealSplit chunks
  rw [maskAll_of_ok h]

/-- the values of the parts but the last -/
theorem idealSplit_eval {n nw : ℕ} {rnd : ℕ → F} {t : List F} {ts : List (List F)}
    (h : idealSplit n nw rnd t = .ok ts) (x : F) : ts.length = nw ∧ ∀ i, i + 1 < nw →
      (toPoly (ts.getD i [])).eval x = (toPoly ((chunks n nw t).getD i [])).eval x + rnd i * x ^ (n + 2) -
        (if i = 0 then 0 else rnd (i - 1)) := by
  obtain rfl := Except.ok.inj h
  obtain ⟨h1, h2⟩ := maskAll_get rnd 0 (fun i hi => chunks_short (n := n) (nw := nw) t hi)
  rw [chunks_length] at h1 h2
  refine ⟨h1, fun i hi => ?_⟩
  rw [(h2 i (by omega)).1, if_pos hi]
  simp

/-! ## The prover -/

/-- the prover depends on the splitting only through its result -/
theorem proveRunsWith_congr {split split' : List F → Except PErr (List (List F))}
    (hs : ∀ q ts, split q = .ok ts → split' q = .ok ts) {gen : F} {newDom : ℕ → Option (Domain F)}
    {oracle : List (Call F G G2) → F} {extra : Option (List ℕ)} {n nw : ℕ} {ck : ProverParam G}
    {rs : List (Run F G G2)} {π : BProof F G}
    (h : proveRunsWith split gen newDom oracle extra n nw ck rs = .ok π) :
    proveRunsWith split' gen newDom oracle extra n nw ck rs = .ok π := by
  have b0 : ∀ {α β : Type} (a : α) (k : α → Except PErr β), (Except.ok a >>= k) = k a := fun _ _ => rfl
  unfold proveRunsWith at h ⊢
  obtain ⟨pis, e1, h⟩ := except_bind_ok h
  rw [e1, b0]
  obtain ⟨⟨d, quot⟩, e2, h⟩ := except_bind_ok h
  rw [e2, b0]
  simp only at h ⊢
  obtain ⟨r1, e3, h⟩ := except_bind_ok h
  rw [e3, b0]
  generalize askTau _ _ _ = tt at h ⊢
  obtain ⟨τ, T⟩ := tt
  simp only [ask] at h ⊢
  obtain ⟨r2, e4, h⟩ := except_bind_ok h
  rw [e4, b0]
  obtain ⟨r3, e5, h⟩ := except_bind_ok h
  rw [e5, b0]
  obtain ⟨r4, e6, h⟩ := except_bind_ok h
  rw [e6, b0]
  obtain ⟨q, e7, h⟩ := except_bind_ok h
  rw [e7, b0]
  obtain ⟨ts, e8, h⟩ := except_bind_ok h
  rw [hs _ _ e8, b0]
  exact h

theorem maskParts_error {n : ℕ} {rnd : ℕ → F} {last : F} {ps : List (List F)} {e : PErr}
    (h : maskParts n rnd last ps = .error e) : e = .snark .panic := by
  induction ps generalizing rnd last with
  | nil => cases h
  | cons a ps ih =>
    cases a with
    | nil => exact (Except.error.inj h).symm
    | cons c q =>
      cases ps with
      | nil => cases h
      | cons b ps =>
        unfold maskParts at h
        split at h
        · exact (Except.error.inj h).symm
        split at h
        · rename_i e' he
          obtain rfl := Except.error.inj h
          exact ih he
        · cases h

theorem splitQuot_error {n nw : ℕ} {rnd : ℕ → F} {t : List F} {e : PErr} (h : splitQuot n nw rnd t = .error e) :
    e = .wrongQuotientDegree ∨ e = .snark .panic := by
  unfold splitQuot at h
  split at h
  · exact Or.inl (Except.error.inj h).symm
  split at h
  · exact Or.inr (Except.error.inj h).symm
  exact Or.inr (maskParts_error h)

/-- with another splitting the prover makes the same proof, or the splitting fails -/
theorem proveRunsWith_other {split split' : List F → Except PErr (List (List F))}
    (hs : ∀ q ts, split q = .ok ts → split' q = .ok ts) {gen : F} {newDom : ℕ → Option (Domain F)}
    {oracle : List (Call F G G2) → F} {extra : Option (List ℕ)} {n nw : ℕ} {ck : ProverParam G}
    {rs : List (Run F G G2)} {π : BProof F G}
    (h : proveRunsWith split' gen newDom oracle extra n nw ck rs = .ok π) :
    proveRunsWith split gen newDom oracle extra n nw ck rs = .ok π ∨
      ∃ q e, split q = .error e ∧ proveRunsWith split gen newDom oracle extra n nw ck rs = .error e := by
  have b0 : ∀ {α β : Type} (a : α) (k : α → Except PErr β), (Except.ok a >>= k) = k a := fun _ _ => rfl
  unfold proveRunsWith at h ⊢
  obtain ⟨pis, e1, h⟩ := except_bind_ok h
  rw [e1, b0]
  obtain ⟨⟨d, quot⟩, e2, h⟩ := except_bind_ok h
  rw [e2, b0]
  simp only at h ⊢
  obtain ⟨r1, e3, h⟩ := except_bind_ok h
  rw [e3, b0]
  generalize askTau _ _ _ = tt at h ⊢
  obtain ⟨τ, T⟩ := tt
  simp only [ask] at h ⊢
  obtain ⟨r2, e4, h⟩ := except_bind_ok h
  rw [e4, b0]
  obtain ⟨r3, e5, h⟩ := except_bind_ok h
  rw [e5, b0]
  obtain ⟨r4, e6, h⟩ := except_bind_ok h
  rw [e6, b0]
  obtain ⟨q, e7, h⟩ := except_bind_ok h
  rw [e7, b0]
  obtain ⟨ts, e8, h⟩ := except_bind_ok h
  cases e9 : split q with
  | error e => exact Or.inr ⟨q, e, e9, rfl⟩
  | ok ts' =>
    rw [hs _ _ e9] at e8
    obtain rfl := Except.ok.inj e8
    rw [b0]
    exact Or.inl h

end Verif.Plonk
