import Verif.Plonk.ProverRun

/-!
# When the prover returns a proof
-/

set_option linter.unusedSectionVars false

namespace Verif.Plonk

open Verif.Pcs Polynomial
open Verif.Props.Verifier (truth Setting combined)

section lists
variable {ε α β : Type}

theorem mapM_total {g : α → Except ε β} {l : List α} (h : ∀ a ∈ l, ∃ b, g a = .ok b) : ∃ l', l.mapM g = .ok l' := by
  induction l with
  | nil => exact ⟨[], rfl⟩
  | cons a l ih =>
    obtain ⟨b, hb⟩ := h a (by simp)
    obtain ⟨l', hl⟩ := ih fun a ha => h a (by simp [ha])
    exact ⟨b :: l', by rw [List.mapM_cons, hb, hl]; rfl⟩

theorem mapM_or {g : α → Except ε β} {e : ε} {l : List α} (h : ∀ a ∈ l, (∃ b, g a = .ok b) ∨ g a = .error e) :
    (∃ l', l.mapM g = .ok l') ∨ l.mapM g = .error e ∧ ∃ a ∈ l, g a = .error e := by
  induction l with
  | nil => exact Or.inl ⟨[], rfl⟩
  | cons a l ih =>
    rcases h a (by simp) with ⟨b, hb⟩ | hb
    · rcases ih fun a ha => h a (by simp [ha]) with ⟨l', hl⟩ | ⟨hl, a', ha', e'⟩
      · exact Or.inl ⟨b :: l', by rw [List.mapM_cons, hb, hl]; rfl⟩
      · exact Or.inr ⟨by rw [List.mapM_cons, hb, hl]; rfl, a', by simp [ha'], e'⟩
    · exact Or.inr ⟨by rw [List.mapM_cons, hb]; rfl, a, by simp, hb⟩

end lists

variable {F G G2 : Type} [Field F] [DecidableEq F] [AddCommGroup G] [Module F G]

/-! ## The quotient -/

theorem shapeOk_of {d : Domain F} {r : Run F G G2} {I : Inst F} (hr : PolysAre d r I) : shapeOk I.nw r = true := by
  have h1 := map_toPoly_length hr.wires
  have h2 := map_toPoly_length hr.sigmas
  have h3 := map_toPoly_length hr.selectors
  have h4 : r.pk.vk.k.length = I.nw := by rw [hr.k]; simp
  have h5 := I.nw_pos.1
  have h13 : 13 ≤ I.nq := by unfold Inst.nq; split <;> omega
  unfold shapeOk
  rcases hr.lookup.cases with ⟨ha, hb, hl⟩ | ⟨a, o, L, ha, hb, hl, hlk⟩
  · rw [ha]
    simp only [Bool.and_true, decide_eq_true_iff]
    omega
  · have hnw : I.nw = 6 := by simp [Inst.nw, hl]
    rw [ha, hb]
    simp only [Option.isSome_some, Bool.and_true, Bool.and_eq_true, decide_eq_true_iff]
    omega

theorem quotEvals_total {d quot : Domain F} (hf : Finer d quot) {coset : Domain F} {zhInv : List F}
    {τ : Option F} {t : F} {α β γ : F} {r : Run F G G2} {I : Inst F} (hr : PolysAre d r I)
    (hτ : I.lookup.isSome → τ = some t) : ∃ l, quotEvals d quot coset zhInv I.nw τ α β γ r = .ok l := by
  unfold quotEvals
  rw [shapeOk_of hr]
  simp only [Bool.not_true, Bool.false_eq_true, if_false]
  refine mapM_total fun i _ => ?_
  rcases hr.lookup.cases with ⟨ha, hb, hl⟩ | ⟨a, o, L, ha, hb, hl, hlk⟩
  · rw [ha, hb]
    exact ⟨_, rfl⟩
  · obtain rfl := hτ (by rw [hl]; rfl)
    rw [ha, hb]
    simp only [quotLookupAt, quotLookup]
    have ho' : d.offset ≠ 0 := by rw [hf.offset]; exact one_ne_zero
    rw [Verif.Props.Lagrange.C57_first_and_last hf.good.prim ho' hf.size]
    exact ⟨_, rfl⟩

theorem quotSum_total {d quot : Domain F} (hf : Finer d quot) {coset : Domain F} {zhInv : List F}
    {τ : Option F} {t : F} {α β γ : F} {nw : ℕ} {rs : List (Run F G G2)} {Is : List (Inst F)}
    (hr : List.Forall₂ (PolysAre d) rs Is) (hn : ∀ I ∈ Is, I.nw = nw)
    (hτ : ∀ I ∈ Is, I.lookup.isSome → τ = some t) (base : F) (acc : List F) :
    ∃ l, quotSum d quot coset zhInv nw τ α β γ rs base acc = .ok l := by
  induction hr generalizing base acc with
  | nil => exact ⟨acc, rfl⟩
  | @cons r I rs Is hrI hrs ih =>
    obtain ⟨l, hl⟩ := quotEvals_total hf (coset := coset) (zhInv := zhInv) (α := α) (β := β) (γ := γ) hrI
      (hτ I (by simp))
    rw [hn I (by simp)] at hl
    rw [quotSum, hl]
    exact ih (fun J hJ => hn J (by simp [hJ])) (fun J hJ => hτ J (by simp [hJ])) _ _

theorem quotPoly_total {d quot : Domain F} (hf : Finer d quot) {gen : F}
    (hz : ∀ i < quot.size / d.size, (gen * quot.gen ^ i) ^ d.size ≠ 1)
    {τ : Option F} {t : F} {α β γ : F} {nw : ℕ} {rs : List (Run F G G2)} {Is : List (Inst F)} (hne : rs ≠ [])
    (hr : List.Forall₂ (PolysAre d) rs Is) (hn : ∀ I ∈ Is, I.nw = nw)
    (hτ : ∀ I ∈ Is, I.lookup.isSome → τ = some t) : ∃ q, quotPoly gen d quot nw τ α β γ rs = .ok q := by
  unfold quotPoly
  rw [if_neg (by simpa using hne)]
  obtain ⟨zi, hzi⟩ : ∃ l, vanishingInverses d.size (quot.size / d.size) quot gen = .ok l := by
    unfold vanishingInverses
    refine mapM_total fun i hi => ?_
    simp only
    rw [if_neg (sub_ne_zero.2 (hz i (List.mem_range.1 hi)))]
    exact ⟨_, rfl⟩
  rw [hzi]
  simp only
  obtain ⟨l, hl⟩ := quotSum_total hf (coset := { quot with offset := gen }) (zhInv := zi) (α := α) (β := β) (γ := γ)
    hr hn hτ 1 (List.replicate quot.size 0)
  rw [hl]
  exact ⟨_, rfl⟩

theorem openingProofs_total {com : F[X] →ₗ[F] G} {d : Domain F} {ck : ProverParam G} {N : ℕ} (hck : Commits com N ck)
    {rs : List (Run F G G2)} (hN : ∀ r ∈ rs, RunLen N r) (ζ v : F) {lin : List F} (hlin : lin.length ≤ N) :
    ∃ w, openingProofs d ck rs ζ v lin = .ok w := by
  have l1 : ∀ q ∈ lin :: (rs.map openPolys).flatten, q.length ≤ N := by
    intro q hq
    rcases List.mem_cons.1 hq with rfl | hq
    · exact hlin
    · obtain ⟨l, hl, hq⟩ := List.mem_flatten.1 hq
      obtain ⟨r, hr, rfl⟩ := List.mem_map.1 hl
      exact (openPolys_length (hN r hr)).1 q hq
  have l2 : ∀ q ∈ (rs.map shiftedPolys).flatten, q.length ≤ N := by
    intro q hq
    obtain ⟨l, hl, hq⟩ := List.mem_flatten.1 hq
    obtain ⟨r, hr, rfl⟩ := List.mem_map.1 hl
    exact (openPolys_length (hN r hr)).2 q hq
  obtain ⟨-, b2⟩ := batchPolys_ok v _ 1 [] (by simp) l1
  obtain ⟨-, b4⟩ := batchPolys_ok v _ 1 [] (by simp) l2
  unfold openingProofs batchWitness
  rw [hck _ ((divPoly_length _ _).trans ((Nat.sub_le _ _).trans b2)),
    hck _ ((divPoly_length _ _).trans ((Nat.sub_le _ _).trans b4))]
  exact ⟨_, rfl⟩

theorem mapM_mem {ε α β : Type} {g : α → Except ε β} {l : List α} {l' : List β} (h : l.mapM g = .ok l') :
    ∀ b ∈ l', ∃ a ∈ l, g a = .ok b := by
  have h' := mapM_forall₂ h
  clear h
  induction h' with
  | nil => simp
  | @cons a b l l' h1 _ ih =>
    intro x hx
    rcases List.mem_cons.1 hx with rfl | hx
    · exact ⟨a, by simp, h1⟩
    · obtain ⟨y, hy, e⟩ := ih x hx
      exact ⟨y, by simp [hy], e⟩

theorem runLkProofs_total {com : F[X] →ₗ[F] G} {d : Domain F} {ok : VerifierParam G G2} (ζ : F)
    {Rs : List (Run F G G2)} {Is : List (Inst F)} (h : List.Forall₂ (Tracks com d ok) Rs Is) :
    (Rs.zip (Is.map (fun I => I.lookup.map (fun _ => (truth d ζ I).lk)))).mapM (fun x => runLkProof x.1 x.2) =
      .ok (Is.map (fun I => I.lookup.map (fun l => Inst.lkProof com l (truth d ζ I)))) := by
  induction h with
  | nil => rfl
  | @cons r I Rs Is h1 _ ih =>
    rw [List.map_cons, List.zip_cons_cons, List.mapM_cons, ih]
    have : runLkProof r (I.lookup.map (fun _ => (truth d ζ I).lk)) =
        .ok (I.lookup.map (fun l => Inst.lkProof com l (truth d ζ I))) := by
      unfold runLkProof
      rw [h1.lookup]
      have e1 := h1.hComms
      have e2 := h1.prodComm
      rcases h1.polys.lookup.cases with ⟨-, -, e3⟩ | ⟨a, o, l, -, e4, e3, -⟩
      · rw [e3]
        rfl
      · rw [e3, e4] at e1 e2
        simp only [Option.map_some, Option.some.injEq] at e1 e2
        rw [e3, e4]
        simp only [Option.isSome_some, if_true, Option.map_some, e1, e2]
        rfl
    rw [this]
    rfl

/-! ## The parts of the quotient -/

/-- the masks of the parts succeed, or there is a panic -/
theorem maskParts_cases {n : ℕ} : ∀ (ps : List (List F)) (rnd : ℕ → F) (last : F), ps ≠ [] →
    ((∀ i, i + 1 < ps.length → (ps.getD i []).length = n + 2 ∧ rnd i ≠ 0) ∧ ps.getLastD [] ≠ [] ∧
      ∃ l, maskParts n rnd last ps = .ok l) ∨
    (((∃ i, i + 1 < ps.length ∧ ((ps.getD i []).length ≠ n + 2 ∨ rnd i = 0)) ∨ ps.getLastD [] = []) ∧
      maskParts n rnd last ps = .error (.snark .panic)) := by
  intro ps
  induction ps with
  | nil => intro _ _ h; exact absurd rfl h
  | cons p ps ih =>
    intro rnd last _
    obtain _ | ⟨q, ps⟩ := ps
    · obtain _ | ⟨c, p⟩ := p
      · exact Or.inr ⟨Or.inr rfl, rfl⟩
      · exact Or.inl ⟨fun i hi => by simp at hi, by simp, _, rfl⟩
    · obtain _ | ⟨c, p⟩ := p
      · exact Or.inr ⟨Or.inl ⟨0, by simp, Or.inl (by simp)⟩, rfl⟩
      · by_cases hc : p.length ≠ n + 1 ∨ rnd 0 = 0
        · refine Or.inr ⟨Or.inl ⟨0, by simp, ?_⟩, ?_⟩
          · rcases hc with hc | hc
            · left; simpa using hc
            · right; exact hc
          · rw [maskParts, if_pos hc]
        · have hc' : p.length = n + 1 ∧ rnd 0 ≠ 0 := by simpa [not_or] using hc
          rcases ih (fun i => rnd (i + 1)) (rnd 0) (by simp) with ⟨h1, h2, l, h3⟩ | ⟨h1, h3⟩
          · left
            refine ⟨fun i hi => ?_, by simpa using h2, ?_⟩
            · obtain _ | i := i
              · exact ⟨by simp [hc'.1], hc'.2⟩
              · simpa using h1 i (by simpa using hi)
            · rw [maskParts, if_neg hc, h3]
              exact ⟨_, rfl⟩
          · right
            refine ⟨?_, by rw [maskParts, if_neg hc, h3]⟩
            rcases h1 with ⟨i, hi, h⟩ | h
            · exact Or.inl ⟨i + 1, by simpa using hi, by simpa using h⟩
            · exact Or.inr (by simpa using h)

/-- the masked parts -/
theorem maskParts_get {n : ℕ} : ∀ {ps : List (List F)} {rnd : ℕ → F} {last : F} {l : List (List F)},
    maskParts n rnd last ps = .ok l → l.length = ps.length ∧ ∀ i < ps.length,
      toPoly (l.getD i []) = toPoly (ps.getD i []) + (if i + 1 < ps.length then C (rnd i) * X ^ (n + 2) else 0) -
        C (if i = 0 then last else rnd (i - 1)) := by
  intro ps
  induction ps with
  | nil => intro rnd last l h; rw [maskParts] at h; rw [← Except.ok.inj h]; simp
  | cons p ps ih =>
    intro rnd last l h
    obtain _ | ⟨c, p⟩ := p
    · rw [maskParts] at h; cases h
    obtain _ | ⟨q, ps⟩ := ps
    · rw [maskParts] at h
      rw [← Except.ok.inj h]
      refine ⟨rfl, fun i hi => ?_⟩
      obtain rfl : i = 0 := by simpa using hi
      simp only [List.getD_cons_zero, toPoly_cons, C_sub]
      simp
      ring
    · rw [maskParts] at h
      split at h
      · cases h
      rename_i hc
      rw [not_or, not_not] at hc
      cases hm : maskParts n (fun i => rnd (i + 1)) (rnd 0) (q :: ps) with
      | error e => rw [hm] at h; cases h
      | ok m =>
        rw [hm] at h
        obtain ⟨h1, h2⟩ := ih hm
        rw [← Except.ok.inj h]
        refine ⟨by simp [h1], fun i hi => ?_⟩
        obtain _ | i := i
        · rw [List.getD_cons_zero, List.getD_cons_zero, if_pos (by simp), if_pos rfl, toPoly_append,
            show (c - last) :: p = [c - last] ++ p from rfl, toPoly_append]
          simp [toPoly_cons, toPoly_nil, hc.1, pow_succ]
          ring
        · rw [List.getD_cons_succ, List.getD_cons_succ, h2 i (by simpa using hi)]
          have e : (i + 1 < (q :: ps).length) = (i + 1 + 1 < ((c :: p) :: q :: ps).length) := by simp
          simp only [e]
          obtain _ | i := i <;> simp

theorem toPoly_coeff (l : List F) (i : ℕ) : (toPoly l).coeff i = l.getD i 0 := by
  induction l generalizing i with
  | nil => simp [toPoly_nil]
  | cons a l ih =>
    rw [toPoly_cons]
    obtain _ | i := i
    · simp
    · simp [ih]

theorem toPoly_take {s : ℕ} {l : List F} {i : ℕ} (hi : i < s) : (toPoly (l.take s)).coeff i = (toPoly l).coeff i := by
  rw [toPoly_coeff, toPoly_coeff]
  simp [List.getD_eq_getElem?_getD, List.getElem?_take, hi]

theorem toPoly_drop (s : ℕ) (l : List F) (i : ℕ) : (toPoly (l.drop s)).coeff i = (toPoly l).coeff (s + i) := by
  rw [toPoly_coeff, toPoly_coeff]
  simp [List.getD_eq_getElem?_getD]

/-- a chunk of coefficients keeps its length when its last coefficient is not zero -/
theorem norm_take_length {s : ℕ} (l : List F) : (norm (l.take (s + 1))).length = s + 1 ↔ (toPoly l).coeff s ≠ 0 := by
  obtain ⟨h1, h2⟩ := toPoly_norm_natDegree (l.take (s + 1))
  have hle : (norm (l.take (s + 1))).length ≤ s + 1 :=
    (norm_length_le _).trans (by simp)
  have hco : (toPoly (norm (l.take (s + 1)))).coeff s = (toPoly l).coeff s := by
    rw [toPoly_norm, toPoly_take (by omega)]
  constructor
  · intro h
    have hne : norm (l.take (s + 1)) ≠ [] := by
      intro h0
      rw [h0] at h
      simp at h
    have := h1 hne
    rw [h, Nat.add_sub_cancel] at h2
    rw [← hco]
    have e := leadingCoeff_ne_zero.2 this
    rwa [leadingCoeff, h2] at e
  · intro h
    by_contra hne
    refine h ?_
    rw [← hco]
    by_cases h0 : norm (l.take (s + 1)) = []
    · rw [h0, toPoly_nil, coeff_zero]
    · have : (norm (l.take (s + 1))).length ≠ 0 := by simpa using h0
      exact coeff_eq_zero_of_natDegree_lt (by omega)

/-- The quotient can be split if it has the right degree and the highest coefficient of every part but the last
and the randomizers are not zero. -/
theorem splitQuot_cases {n nw : ℕ} (hnw : 2 ≤ nw) (hn : nw ≤ n + 4) (rnd : ℕ → F) {q : List F}
    (hq : (toPoly q).natDegree = Pcs.degree q) :
    ((toPoly q).natDegree ≠ nw * (n + 1) + 2 ∧ splitQuot n nw rnd q = .error .wrongQuotientDegree) ∨
    (toPoly q).natDegree = nw * (n + 1) + 2 ∧
    (((∃ i < nw - 1, rnd i = 0 ∨ (toPoly q).coeff ((i + 1) * (n + 2) - 1) = 0) ∧
      splitQuot n nw rnd q = .error (.snark .panic)) ∨
    (∀ i < nw - 1, rnd i ≠ 0 ∧ (toPoly q).coeff ((i + 1) * (n + 2) - 1) ≠ 0) ∧
      ∃ ts, splitQuot n nw rnd q = .ok ts) := by
  rw [hq]
  unfold splitQuot
  by_cases hdeg : Pcs.degree q = nw * (n + 1) + 2
  swap
  · exact Or.inl ⟨hdeg, by rw [if_pos hdeg]⟩
  right
  refine ⟨hdeg, ?_⟩
  rw [if_neg (by simpa using hdeg), if_neg (by omega)]
  set ps := (List.range nw).map (fun i =>
    norm (if i < nw - 1 then (q.drop (i * (n + 2))).take (n + 2) else q.drop (i * (n + 2)))) with hps
  have hlen : ps.length = nw := by simp [hps]
  have hget : ∀ i < nw, ps.getD i [] =
      norm (if i < nw - 1 then (q.drop (i * (n + 2))).take (n + 2) else q.drop (i * (n + 2))) := by
    intro i hi
    rw [hps, List.getD_eq_getElem?_getD, List.getElem?_map, List.getElem?_range hi]
    rfl
  have hfull : ∀ i < nw - 1, (ps.getD i []).length = n + 2 ↔ (toPoly q).coeff ((i + 1) * (n + 2) - 1) ≠ 0 := by
    intro i hi
    rw [hget i (by omega), if_pos hi, show n + 2 = (n + 1) + 1 from rfl, norm_take_length, toPoly_drop]
    have : (i + 1) * (n + 1 + 1) - 1 = i * (n + 1 + 1) + (n + 1) := by
      rw [add_mul]
      omega
    rw [this]
  have hlast : ps.getLastD [] ≠ [] := by
    have e : ps.getLastD [] = ps.getD (nw - 1) [] := by
      rw [List.getLastD_eq_getLast?, List.getLast?_eq_getElem?, hlen, List.getD_eq_getElem?_getD]
    rw [e, hget _ (by omega), if_neg (by omega)]
    intro h0
    have hz : toPoly (q.drop ((nw - 1) * (n + 2))) = 0 := by rw [← toPoly_norm, h0, toPoly_nil]
    have hle : (nw - 1) * (n + 2) ≤ nw * (n + 1) + 2 := by
      obtain ⟨k, rfl⟩ : ∃ k, nw = k + 1 := ⟨nw - 1, by omega⟩
      rw [Nat.add_sub_cancel]
      nlinarith
    have hc := toPoly_drop ((nw - 1) * (n + 2)) q (nw * (n + 1) + 2 - (nw - 1) * (n + 2))
    rw [hz, coeff_zero, show (nw - 1) * (n + 2) + (nw * (n + 1) + 2 - (nw - 1) * (n + 2)) = (toPoly q).natDegree by
      rw [hq, hdeg]; omega, coeff_natDegree] at hc
    have := leadingCoeff_eq_zero.1 hc.symm
    rw [this, natDegree_zero, hdeg] at hq
    omega
  rcases maskParts_cases ps rnd 0 (by intro h0; rw [h0] at hlen; simp at hlen; omega) (n := n) with
    ⟨h1, -, h3⟩ | ⟨h1, h3⟩
  · right
    refine ⟨fun i hi => ?_, h3⟩
    obtain ⟨a, b⟩ := h1 i (by omega)
    exact ⟨b, (hfull i hi).1 a⟩
  · left
    refine ⟨?_, h3⟩
    rcases h1 with ⟨i, hi, h⟩ | h
    · refine ⟨i, by omega, ?_⟩
      rcases h with h | h
      · right
        by_contra h0
        exact h ((hfull i (by omega)).2 h0)
      · exact Or.inl h
    · exact absurd h hlast

/-! ## The prover -/

/-- the prover has drawn `τ`, `β` and `γ` -/
structure Started (oracle : List (Call F G G2) → F) (extra : Option (List ℕ)) (d : Domain F)
    (rs r1 r2 : List (Run F G G2)) (T4 : List (Call F G G2)) (τ : Option F) (β γ : F) : Prop where
  h1 : rs.mapM (round1 d) = .ok r1
  h2 : r1.mapM (lkRound1 d τ) = .ok r2
  drawn : ∃ pis T2 T3, rs.mapM (fun r => liftC r.cs.publicInput) = .ok pis ∧
    askTau oracle (r1.any (·.cs.lookup)) (extraMsg extra ++
      List.map (fun x : VKey F G G2 × List F => Call.vkAndInput x.1 x.2)
        ((List.map (fun x : Run F G G2 => x.pk.vk) rs).zip pis) ++
      r1.map (Call.commitments "witness_poly_comms" ·.wireComms)) = (τ, T2) ∧
    T3 = T2 ++ r2.filterMap (·.lk.map (fun l => Call.commitments "h_poly_comms" l.hComms)) ++
      [Call.challenge "beta"] ∧ oracle T3 = β ∧ T4 = T3 ++ [Call.challenge "gamma"] ∧ oracle T4 = γ

/-- the challenge `α` comes from the commitments to the products -/
structure Alpha (oracle : List (Call F G G2) → F) (d : Domain F) (r2 r3 Rs : List (Run F G G2))
    (T4 : List (Call F G G2)) (τ : Option F) (α β γ : F) : Prop where
  h3 : r2.mapM (round2 d β γ) = .ok r3
  h4 : r3.mapM (lkRound2 d τ β γ) = .ok Rs
  alpha : oracle (T4 ++ r3.map (Call.commitment "perm_poly_comms" ·.zComm) ++
    Rs.filterMap (·.lk.map (fun l => Call.commitment "plookup_poly_comms" l.prodComm)) ++
    [Call.challenge "alpha"]) = α

theorem ran_of {oracle : List (Call F G G2) → F} {extra : Option (List ℕ)} {d : Domain F}
    {rs r1 r2 r3 Rs : List (Run F G G2)} {T4 : List (Call F G G2)} {τ : Option F} {α β γ : F}
    (hs : Started oracle extra d rs r1 r2 T4 τ β γ) (ha : Alpha oracle d r2 r3 Rs T4 τ α β γ) :
    List.Forall₂ (Ran d τ β γ) rs Rs := by
  have := forall₂_comp (mapM_forall₂ hs.h1) (forall₂_comp (mapM_forall₂ hs.h2)
    (forall₂_comp (mapM_forall₂ ha.h3) (mapM_forall₂ ha.h4)))
  refine this.imp fun a b hab => ?_
  obtain ⟨x, hx, y, hy, z, hz, hb⟩ := hab
  exact ⟨x, y, z, hx, hy, hz, hb⟩

theorem tau_isSome {oracle : List (Call F G G2) → F} {d : Domain F} {rs r1 : List (Run F G G2)}
    (h1 : rs.mapM (round1 d) = .ok r1) {b : Bool} (hlk : ∀ r ∈ rs, r.cs.lookup = b) (hne : rs ≠ [])
    {τ : Option F} {T T2 : List (Call F G G2)} (hτ : askTau oracle (r1.any (·.cs.lookup)) T = (τ, T2)) :
    b → τ.isSome := by
  intro hb
  have : r1.any (·.cs.lookup) = true := by
    obtain _ | ⟨r, l⟩ := rs
    · exact absurd rfl hne
    · rw [List.mapM_cons] at h1
      obtain ⟨x, hx, h1⟩ := except_bind_ok h1
      obtain ⟨y, hy, h1⟩ := except_bind_ok h1
      rw [← Except.ok.inj h1, List.any_cons, (round1_keeps hx).1, hlk r (by simp), hb]
      rfl
  rw [this] at hτ
  simp only [askTau, if_true, ask, Prod.mk.injEq] at hτ
  rw [← hτ.1]
  rfl

/-- the instances of the runs that have passed the rounds up to the quotient -/
theorem tracks_of {com : F[X] →ₗ[F] G} {d : Domain F} {ok : VerifierParam G G2} {nw : ℕ} {b : Bool}
    {rs Rs : List (Run F G G2)} {τ : Option F} {β γ : F} (hlk : ∀ r ∈ rs, r.cs.lookup = b) (hτ : b → τ.isSome)
    (hran : List.Forall₂ (Ran d τ β γ) rs Rs)
    (hrun : ∀ r₀ ∈ rs, ∀ (τ : Option F) (β γ : F) (r : Run F G G2), (b → τ.isSome) → Ran d τ β γ r₀ r →
      ∃ I, Tracks com d ok r I ∧ I.nw = nw ∧
        ∀ e ∈ I.constraints d (τ.getD 0) β γ, ∀ j < d.size, e.eval (d.gen ^ j) = 0) :
    ∃ Is, List.Forall₂ (fun r I => Tracks com d ok r I ∧ I.nw = nw ∧
      ∀ e ∈ I.constraints d (τ.getD 0) β γ, ∀ j < d.size, e.eval (d.gen ^ j) = 0) Rs Is ∧
      (∀ I ∈ Is, I.lookup.isSome = b) ∧ (∀ I ∈ Is, I.lookup.isSome → τ = some (τ.getD 0)) ∧
      (∀ I ∈ Is, I.Tight d.size ∧ I.nw = nw) := by
  obtain ⟨Is, hIs⟩ := forall₂_choose (P := fun r I => Tracks com d ok r I ∧ I.nw = nw ∧
      ∀ e ∈ I.constraints d (τ.getD 0) β γ, ∀ j < d.size, e.eval (d.gen ^ j) = 0) hran
    (fun a ha r hr => hrun a ha τ β γ r hτ hr)
  have hRs : Rs.map (·.cs.lookup) = rs.map (·.cs.lookup) := by
    refine (forall₂_map_eq hran fun a r ⟨r1, r2, r3, h1, h2, h3, h4⟩ => ?_).symm
    rw [(lkRound2_keeps h4).1, (round2_keeps h3).1, (lkRound1_keeps h2).1, (round1_keeps h1).1]
  have hlookI : ∀ I ∈ Is, I.lookup.isSome = b := by
    have : Is.map (fun I => I.lookup.isSome) = rs.map (·.cs.lookup) :=
      (forall₂_map_eq hIs fun _ _ h => h.1.lookup).symm.trans hRs
    intro I hI
    have hm := List.mem_map_of_mem (f := fun I : Inst F => I.lookup.isSome) hI
    rw [this] at hm
    obtain ⟨r', hr', e⟩ := List.mem_map.1 hm
    rw [← e]
    exact hlk r' hr'
  refine ⟨Is, hIs, hlookI, fun I hI hs => ?_, fun I hI =>
    ⟨forall₂_right hIs (P := fun I => I.Tight d.size) (fun _ _ h => h.1.tight) I hI,
      forall₂_right hIs (P := fun I => I.nw = nw) (fun _ _ h => h.2.1) I hI⟩⟩
  obtain ⟨t, ht⟩ := Option.isSome_iff_exists.1 (hτ ((hlookI I hI) ▸ hs))
  rw [ht]
  rfl

/-- The outcomes of the prover for runs whose first round and lookup preparation cannot fail: a panic for
a zero denominator in one of the products, or an error of the splitting of the quotient, or a proof. -/
theorem proveRunsWith_outcome {com : F[X] →ₗ[F] G} {d : Domain F} {ok : VerifierParam G G2} {ck : ProverParam G}
    (hck : Commits com (d.size + 3) ck) {gen : F} (hgen : gen ≠ 0) {newDom : ℕ → Option (Domain F)} {nw : ℕ}
    (hd : newDom d.size = some d) {quot : Domain F} (hq : newDom (d.size * domainSizeRatio d.size nw) = some quot)
    (hfine : Finer d quot) (hsize : nw * (d.size + 1) + 2 < quot.size)
    (hz : ∀ i < quot.size / d.size, (gen * quot.gen ^ i) ^ d.size ≠ 1)
    {oracle : List (Call F G G2) → F} {extra : Option (List ℕ)} {splitter : List F → Except PErr (List (List F))}
    (hspl : Splits d nw splitter) {rs : List (Run F G G2)}
    (hne : rs ≠ []) {b : Bool} (hlk : ∀ r ∈ rs, r.cs.lookup = b)
    (hpub : ∀ r ∈ rs, ∃ pi, r.cs.publicInput = .ok pi)
    (hgo : ∀ r₀ ∈ rs, ∃ r1, round1 d r₀ = .ok r1 ∧ ∀ τ : Option F, (b → τ.isSome) → ∃ r2, lkRound1 d τ r1 = .ok r2 ∧
      ∀ β γ, (∃ r3, round2 d β γ r2 = .ok r3 ∧
        ((∃ r, lkRound2 d τ β γ r3 = .ok r) ∨ lkRound2 d τ β γ r3 = .error (.circuit .panic))) ∨
        round2 d β γ r2 = .error (.circuit .panic))
    (hrun : ∀ r₀ ∈ rs, ∀ (τ : Option F) (β γ : F) (r : Run F G G2), (b → τ.isSome) → Ran d τ β γ r₀ r →
      ∃ I, Tracks com d ok r I ∧ I.nw = nw ∧
        ∀ e ∈ I.constraints d (τ.getD 0) β γ, ∀ j < d.size, e.eval (d.gen ^ j) = 0) :
    ∃ r1 r2 T4 τ β γ, Started oracle extra d rs r1 r2 T4 τ β γ ∧ (b → τ.isSome) ∧
      ((proveRunsWith splitter gen newDom oracle extra d.size nw ck rs = .error (.circuit .panic) ∧
        ∃ r₀ ∈ rs, ¬ ∃ r, Ran d τ β γ r₀ r) ∨
      ∃ r3 Rs α Is q, Alpha oracle d r2 r3 Rs T4 τ α β γ ∧
        List.Forall₂ (fun r I => Tracks com d ok r I ∧ I.nw = nw ∧
          ∀ e ∈ I.constraints d (τ.getD 0) β γ, ∀ j < d.size, e.eval (d.gen ^ j) = 0) Rs Is ∧
        (X ^ d.size - 1) * toPoly q = batch d (τ.getD 0) α β γ Is (alphaBases α (firstLookup Is) Is.length) ∧
        (toPoly q).natDegree = Pcs.degree q ∧
        ((∃ e, splitter q = .error e ∧
          proveRunsWith splitter gen newDom oracle extra d.size nw ck rs = .error e) ∨
        ((∃ ts, splitter q = .ok ts) ∧
          ∃ π, proveRunsWith splitter gen newDom oracle extra d.size nw ck rs = .ok π))) := by
  have b0 : ∀ {α β : Type} (a : α) (k : α → Except PErr β), (Except.ok a >>= k) = k a := fun _ _ => rfl
  have b1 : ∀ {α β : Type} (a : PErr) (k : α → Except PErr β), (Except.error a >>= k) = .error a := fun _ _ => rfl
  generalize hE : proveRunsWith splitter gen newDom oracle extra d.size nw ck rs = E
  unfold proveRunsWith at hE
  obtain ⟨pis, hpis⟩ : ∃ pis, rs.mapM (fun r => liftC r.cs.publicInput) = .ok pis :=
    mapM_total fun r hr => by
      obtain ⟨pi, e⟩ := hpub r hr
      exact ⟨pi, by rw [e]; rfl⟩
  have hdom : proverDomains newDom d.size nw = .ok (d, quot) := by
    unfold proverDomains
    rw [hd]
    simp only
    rw [hq]
  obtain ⟨r1, h1⟩ : ∃ r1, rs.mapM (round1 d) = .ok r1 := mapM_total fun r hr => by
    obtain ⟨r1, e, -⟩ := hgo r hr
    exact ⟨r1, e⟩
  rw [hpis, b0, hdom, b0] at hE
  simp only at hE
  rw [h1, b0] at hE
  generalize hτ : askTau oracle (r1.any (·.cs.lookup)) (extraMsg extra ++
    List.map (fun x : VKey F G G2 × List F => Call.vkAndInput x.1 x.2)
      ((List.map (fun x : Run F G G2 => x.pk.vk) rs).zip pis) ++
      r1.map (Call.commitments "witness_poly_comms" ·.wireComms)) = tt at hE
  obtain ⟨τ, T2⟩ := tt
  simp only [ask] at hE
  have hτs := tau_isSome h1 hlk hne hτ
  have hgo1 : ∀ x ∈ r1, ∃ r2, lkRound1 d τ x = .ok r2 ∧
      ∀ β γ, (∃ r3, round2 d β γ r2 = .ok r3 ∧
        ((∃ r, lkRound2 d τ β γ r3 = .ok r) ∨ lkRound2 d τ β γ r3 = .error (.circuit .panic))) ∨
        round2 d β γ r2 = .error (.circuit .panic) := by
    intro x hx
    obtain ⟨r₀, hr₀, e⟩ := mapM_mem h1 x hx
    obtain ⟨y, hy, hy'⟩ := hgo r₀ hr₀
    obtain rfl : y = x := by
      rw [hy] at e
      exact Except.ok.inj e
    exact hy' τ hτs
  obtain ⟨r2, h2⟩ : ∃ r2, r1.mapM (lkRound1 d τ) = .ok r2 := mapM_total fun x hx => by
    obtain ⟨y, hy, -⟩ := hgo1 x hx
    exact ⟨y, hy⟩
  have hgo2 : ∀ x ∈ r2, ∀ β γ, (∃ r3, round2 d β γ x = .ok r3 ∧
      ((∃ r, lkRound2 d τ β γ r3 = .ok r) ∨ lkRound2 d τ β γ r3 = .error (.circuit .panic))) ∨
      round2 d β γ x = .error (.circuit .panic) := by
    intro x hx
    obtain ⟨r₀, hr₀, e⟩ := mapM_mem h2 x hx
    obtain ⟨y, hy, hy'⟩ := hgo1 r₀ hr₀
    obtain rfl : y = x := by
      rw [hy] at e
      exact Except.ok.inj e
    exact hy'
  rw [h2, b0] at hE
  generalize hβ' : T2 ++ r2.filterMap (·.lk.map (fun l => Call.commitments "h_poly_comms" l.hComms)) ++
    [Call.challenge "beta"] = T3 at hE
  generalize hβ : oracle T3 = β at hE
  generalize hγ' : T3 ++ [Call.challenge "gamma"] = T4 at hE
  generalize hγ : oracle T4 = γ at hE
  have hst : Started oracle extra d rs r1 r2 T4 τ β γ :=
    ⟨h1, h2, pis, T2, T3, hpis, hτ, hβ'.symm, hβ, hγ'.symm, hγ⟩
  refine ⟨r1, r2, T4, τ, β, γ, hst, hτs, ?_⟩
  have hback : ∀ y ∈ r2, ∃ r₀ ∈ rs, ∃ x, round1 d r₀ = .ok x ∧ lkRound1 d τ x = .ok y := by
    intro y hy
    obtain ⟨x, hx, e⟩ := mapM_mem h2 y hy
    obtain ⟨r₀, hr₀, e'⟩ := mapM_mem h1 x hx
    exact ⟨r₀, hr₀, x, e', e⟩
  rcases mapM_or (g := round2 d β γ) (e := .circuit .panic) (l := r2) (fun x hx => by
      rcases hgo2 x hx β γ with ⟨y, hy, -⟩ | hy
      · exact Or.inl ⟨y, hy⟩
      · exact Or.inr hy) with ⟨r3, h3⟩ | ⟨h3, y, hy, e⟩
  swap
  · left
    rw [h3, b1] at hE
    refine ⟨hE.symm, ?_⟩
    obtain ⟨r₀, hr₀, x, e1, e2⟩ := hback y hy
    refine ⟨r₀, hr₀, ?_⟩
    rintro ⟨r, x', y', z, f1, f2, f3, -⟩
    rw [e1] at f1
    obtain rfl := Except.ok.inj f1
    rw [e2] at f2
    obtain rfl := Except.ok.inj f2
    rw [e] at f3
    cases f3
  rw [h3, b0] at hE
  rcases mapM_or (g := lkRound2 d τ β γ) (e := .circuit .panic) (l := r3) (fun z hz => by
      obtain ⟨y, hy, e⟩ := mapM_mem h3 z hz
      rcases hgo2 y hy β γ with ⟨z', hz', h⟩ | h
      · rw [e] at hz'
        obtain rfl := Except.ok.inj hz'
        exact h
      · rw [e] at h
        cases h) with ⟨Rs, h4⟩ | ⟨h4, z, hz, e⟩
  swap
  · left
    rw [h4, b1] at hE
    refine ⟨hE.symm, ?_⟩
    obtain ⟨y, hy, e3⟩ := mapM_mem h3 z hz
    obtain ⟨r₀, hr₀, x, e1, e2⟩ := hback y hy
    refine ⟨r₀, hr₀, ?_⟩
    rintro ⟨r, x', y', z', f1, f2, f3, f4⟩
    rw [e1] at f1
    obtain rfl := Except.ok.inj f1
    rw [e2] at f2
    obtain rfl := Except.ok.inj f2
    rw [e3] at f3
    obtain rfl := Except.ok.inj f3
    rw [e] at f4
    cases f4
  right
  rw [h4, b0] at hE
  generalize hα' : T4 ++ r3.map (Call.commitment "perm_poly_comms" ·.zComm) ++
    Rs.filterMap (·.lk.map (fun l => Call.commitment "plookup_poly_comms" l.prodComm)) ++
    [Call.challenge "alpha"] = T5 at hE
  generalize hα : oracle T5 = α at hE
  have hal : Alpha oracle d r2 r3 Rs T4 τ α β γ := ⟨h3, h4, by rw [hα', hα]⟩
  have hran := ran_of hst hal
  obtain ⟨Is, hIs, hlookI, hτI, htight⟩ := tracks_of (com := com) (ok := ok) hlk hτs hran hrun
  have hpolys : List.Forall₂ (PolysAre d) Rs Is := hIs.imp fun _ _ h => h.1.polys
  have hlen : ∀ r ∈ Rs, RunLen (d.size + 3) r := forall₂_left hIs fun _ _ h => h.1.len
  have hRne : Rs ≠ [] := by
    rintro rfl
    cases hran
    exact hne rfl
  obtain ⟨q, hqp⟩ := quotPoly_total (α := α) (β := β) (γ := γ) hfine hz hRne hpolys (fun I hI => (htight I hI).2) hτI
  obtain ⟨-, hquo, hqdeg⟩ := quotPoly_ok hfine hgen hsize hpolys htight hlookI hτI
    (forall₂_right hIs (P := fun I => ∀ e ∈ I.constraints d (τ.getD 0) β γ, ∀ j < d.size, e.eval (d.gen ^ j) = 0)
      (fun _ _ h => h.2.2)) hqp
  refine ⟨r3, Rs, α, Is, q, hal, hIs, hquo, hqdeg, ?_⟩
  rw [hqp, b0] at hE
  cases hts : splitter q with
  | error e =>
    left
    rw [hts, b1] at hE
    exact ⟨e, rfl, hE.symm⟩
  | ok ts =>
    right
    refine ⟨⟨ts, rfl⟩, ?_⟩
    obtain ⟨htne, -, htlen⟩ := hspl q ts hts hqdeg (quotient_degree hfine.good htight hquo)
    rw [hts, b0, hck.batch htlen] at hE
    simp only [liftP] at hE
    rw [b0] at hE
    generalize oracle (T5 ++ [Call.commitments "quot_poly_comms" ((ts.map toPoly).map com)] ++ [Call.challenge "zeta"]) = ζ
      at hE
    have hes : Rs.map (runEvals d nw ζ) = Is.map (fun I => I.evals (truth d ζ I)) :=
      forall₂_map_eq hIs fun r I h => by rw [← h.2.1]; exact runEvals_ok h.1.polys ζ
    obtain ⟨p0, e1, e2, e3⟩ := linQuot_ok hfine.offset ζ htne htlen
    obtain ⟨p1, e4, -, e6⟩ := linPolyLoop_ok hfine.good hfine.size ⟨τ, α, β, γ, ζ, 0, 0⟩ hpolys hlen hlookI hτI 1 e3
    simp only at e4
    rw [forall₂_mapM hIs (g := fun I => I.lookup.map (fun _ => (truth d ζ I).lk))
      fun r I h => runLkEvals_ok h.1.polys h.1.lookup ζ, b0, e1, b0, hes, e4, b0] at hE
    generalize oracle _ = v at hE
    obtain ⟨w, hw⟩ := openingProofs_total (d := d) hck hlen ζ v e6
    rw [hw, b0] at hE
    rw [runLkProofs_total ζ (hIs.imp fun _ _ h => h.1), b0] at hE
    exact ⟨_, hE.symm⟩

end Verif.Plonk
