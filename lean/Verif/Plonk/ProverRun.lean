import Verif.Plonk.ProverOpen

/-!
# A run of the prover
-/

set_option linter.unusedSectionVars false

namespace Verif.Plonk

open Verif.Pcs Polynomial
open Verif.Props.Verifier (truth Setting combined)

section lists
variable {ε α β γ : Type}

theorem mapM_preserve {g : α → Except ε β} {φ : α → γ} {ψ : β → γ} {l : List α} {l' : List β}
    (h : ∀ a b, g a = .ok b → ψ b = φ a) (hl : l.mapM g = .ok l') : l'.map ψ = l.map φ := by
  have hl' := mapM_forall₂ hl
  clear hl
  induction hl' with
  | nil => rfl
  | cons h1 _ ih => rw [List.map_cons, List.map_cons, h _ _ h1, ih]

theorem forall₂_map_eq {R : α → β → Prop} {f : α → γ} {g : β → γ} {l : List α} {l' : List β}
    (hl : List.Forall₂ R l l') (h : ∀ a b, R a b → f a = g b) : l.map f = l'.map g := by
  induction hl with
  | nil => rfl
  | cons h1 _ ih => rw [List.map_cons, List.map_cons, h _ _ h1, ih]

theorem forall₂_mapM {R : α → β → Prop} {f : α → Except ε γ} {g : β → γ} {l : List α} {l' : List β}
    (hl : List.Forall₂ R l l') (h : ∀ a b, R a b → f a = .ok (g b)) : l.mapM f = .ok (l'.map g) := by
  induction hl with
  | nil => rfl
  | cons h1 _ ih =>
    rw [List.mapM_cons, h _ _ h1, ih]
    rfl

theorem forall₂_comp {δ : Type} {R : α → β → Prop} {T : β → δ → Prop} : ∀ {l : List α} {l' : List β} {l'' : List δ},
    List.Forall₂ R l l' → List.Forall₂ T l' l'' → List.Forall₂ (fun a c => ∃ b, R a b ∧ T b c) l l'' := by
  intro l l' l'' h
  induction h generalizing l'' with
  | nil => intro h'; cases h'; exact .nil
  | cons h1 _ ih =>
    intro h'
    cases h' with
    | cons h2 h3 => exact .cons ⟨_, h1, h2⟩ (ih h3)

theorem forall₂_choose {R : α → β → Prop} {P : β → γ → Prop} {l : List α} {l' : List β}
    (h : List.Forall₂ R l l') (hP : ∀ a ∈ l, ∀ b, R a b → ∃ c, P b c) : ∃ l'', List.Forall₂ P l' l'' := by
  induction h with
  | nil => exact ⟨[], .nil⟩
  | cons h1 _ ih =>
    obtain ⟨c, hc⟩ := hP _ (by simp) _ h1
    obtain ⟨l'', hl⟩ := ih fun a ha => hP a (by simp [ha])
    exact ⟨c :: l'', .cons hc hl⟩

theorem forall₂_left {R : α → β → Prop} {P : α → Prop} {l : List α} {l' : List β} (h : List.Forall₂ R l l')
    (hP : ∀ a b, R a b → P a) : ∀ a ∈ l, P a := by
  induction h with
  | nil => simp
  | cons h1 _ ih =>
    intro a ha
    rcases List.mem_cons.1 ha with rfl | ha
    · exact hP _ _ h1
    · exact ih a ha

theorem forall₂_right {R : α → β → Prop} {P : β → Prop} {l : List α} {l' : List β} (h : List.Forall₂ R l l')
    (hP : ∀ a b, R a b → P b) : ∀ b ∈ l', P b := by
  induction h with
  | nil => simp
  | cons h1 _ ih =>
    intro a ha
    rcases List.mem_cons.1 ha with rfl | ha
    · exact hP _ _ h1
    · exact ih a ha

theorem filterMap_eq (f : α → Option β) (l : List α) : l.filterMap f = (l.map f).filterMap id := by
  rw [List.filterMap_map]
  rfl

end lists

variable {F G G2 : Type} [Field F] [DecidableEq F] [AddCommGroup G] [Module F G]

/-! ## The rounds -/

/-- a run has passed the rounds up to the quotient -/
def Ran (d : Domain F) (τ : Option F) (β γ : F) (r₀ r : Run F G G2) : Prop :=
  ∃ r1 r2 r3, round1 d r₀ = .ok r1 ∧ lkRound1 d τ r1 = .ok r2 ∧ round2 d β γ r2 = .ok r3 ∧
    lkRound2 d τ β γ r3 = .ok r

theorem round1_keeps {d : Domain F} {r r' : Run F G G2} (h : round1 d r = .ok r') : r'.cs = r.cs ∧ r'.pk = r.pk := by
  unfold round1 at h
  obtain ⟨a, -, h⟩ := except_bind_ok h
  obtain ⟨b, -, h⟩ := except_bind_ok h
  obtain ⟨c, -, h⟩ := except_bind_ok h
  rw [← Except.ok.inj h]
  exact ⟨rfl, rfl⟩

theorem lkRound1_keeps {d : Domain F} {τ : Option F} {r r' : Run F G G2} (h : lkRound1 d τ r = .ok r') :
    r'.cs = r.cs ∧ r'.pk = r.pk ∧ r'.wireComms = r.wireComms := by
  unfold lkRound1 at h
  split at h
  · cases τ with
    | none => cases h
    | some τ =>
      simp only at h
      obtain ⟨a, -, h⟩ := except_bind_ok h
      obtain ⟨b, -, h⟩ := except_bind_ok h
      obtain ⟨c, -, h⟩ := except_bind_ok h
      rw [← Except.ok.inj h]
      exact ⟨rfl, rfl, rfl⟩
  · rw [← Except.ok.inj h]
    exact ⟨rfl, rfl, rfl⟩

theorem round2_keeps {d : Domain F} {β γ : F} {r r' : Run F G G2} (h : round2 d β γ r = .ok r') :
    r'.cs = r.cs ∧ r'.pk = r.pk ∧ r'.wireComms = r.wireComms ∧ r'.lk = r.lk := by
  unfold round2 at h
  obtain ⟨a, -, h⟩ := except_bind_ok h
  obtain ⟨b, -, h⟩ := except_bind_ok h
  rw [← Except.ok.inj h]
  exact ⟨rfl, rfl, rfl, rfl⟩

theorem lkRound2_keeps {d : Domain F} {τ : Option F} {β γ : F} {r r' : Run F G G2} (h : lkRound2 d τ β γ r = .ok r') :
    r'.cs = r.cs ∧ r'.pk = r.pk ∧ r'.wireComms = r.wireComms ∧ r'.zComm = r.zComm ∧
      r'.lk.map (·.hComms) = r.lk.map (·.hComms) := by
  unfold lkRound2 at h
  split at h
  · cases hl : r.lk with
    | none => rw [hl] at h; cases h
    | some l =>
      rw [hl] at h
      cases τ with
      | none => cases h
      | some τ =>
        simp only at h
        obtain ⟨a, -, h⟩ := except_bind_ok h
        obtain ⟨b, -, h⟩ := except_bind_ok h
        rw [← Except.ok.inj h]
        exact ⟨rfl, rfl, rfl, rfl, rfl⟩
  · rw [← Except.ok.inj h]
    exact ⟨rfl, rfl, rfl, rfl, rfl⟩

/-- the run is one for the polynomials of the instance, and has made commitments to them -/
structure Tracks (com : F[X] →ₗ[F] G) (d : Domain F) (ok : VerifierParam G G2) (r : Run F G G2) (I : Inst F) :
    Prop where
  polys : PolysAre d r I
  vk : r.pk.vk = I.key com d ok
  wireComms : r.wireComms = (List.range I.nw).map (fun i => com (I.w i))
  zComm : r.zComm = com I.z
  hComms : r.lk.map (·.hComms) = I.lookup.map (fun l => [com l.h1, com l.h2])
  prodComm : r.lk.map (·.prodComm) = I.lookup.map (fun l => com l.prod)
  lookup : r.cs.lookup = I.lookup.isSome
  publicInput : r.cs.publicInput = .ok I.inputs
  inputs : IsInputs d I.merged I.inputs I.pi
  tight : I.Tight d.size
  len : RunLen (d.size + 3) r

/-- the commitment key makes the commitments -/
def Commits (com : F[X] →ₗ[F] G) (N : ℕ) (ck : ProverParam G) : Prop :=
  ∀ l : List F, l.length ≤ N → commit ck l = .ok (com (toPoly l))

theorem Commits.batch {com : F[X] →ₗ[F] G} {N : ℕ} {ck : ProverParam G} (h : Commits com N ck)
    {ls : List (List F)} (hl : ∀ l ∈ ls, l.length ≤ N) : batchCommit ck ls = .ok ((ls.map toPoly).map com) := by
  unfold batchCommit
  rw [List.map_map]
  induction ls with
  | nil => rfl
  | cons a ls ih =>
    rw [List.mapM_cons, h a (hl a (by simp)), ih fun l hl' => hl l (by simp [hl'])]
    rfl

theorem openingProofs_ok {com : F[X] →ₗ[F] G} {d : Domain F} {ck : ProverParam G} {N : ℕ} (hck : Commits com N ck)
    {rs : List (Run F G G2)} {Is : List (Inst F)} (hr : List.Forall₂ (PolysAre d) rs Is)
    (hN : ∀ r ∈ rs, RunLen N r) (ζ v : F) {lin : List F} (hlin : lin.length ≤ N) {R : F[X]} {c : F}
    (hR : toPoly lin = R + C c) (h0 : R.eval ζ = 0) {w : G × G}
    (h : openingProofs d ck rs ζ v lin = .ok w) :
    ∃ W W' : F[X], w = (com W, com W') ∧
      (X - C ζ) * W = R + (parts v (allItems (Is.map (fun I => (I, truth d ζ I)))) v 1).1 ∧
      (X - C (ζ * d.gen)) * W' = (parts v (allItems (Is.map (fun I => (I, truth d ζ I)))) v 1).2 := by
  set items := allItems (Is.map (fun I => (I, truth d ζ I))) with hitems
  have htrue : ∀ x ∈ items, x.2.2 = x.2.1.eval (if x.1 then ζ * d.gen else ζ) := by
    intro x hx
    obtain ⟨y, hy, hx⟩ := List.mem_flatMap.1 hx
    obtain ⟨I, -, rfl⟩ := List.mem_map.1 hy
    refine (items_true I (truth d ζ I) d ζ).2 ⟨fun _ _ => rfl, fun _ _ => rfl, rfl, fun l hl => ?_⟩ x hx
    simp [truth, hl]
  obtain ⟨hA, hB⟩ := parts_eval ζ (ζ * d.gen) v items htrue v 1
  obtain ⟨⟨c1, e1⟩, c2, e2⟩ := parts_opened v items v 1
  obtain ⟨o1, o2⟩ := allOpened (ζ := ζ) hr
  have l1 : ∀ q ∈ lin :: (rs.map openPolys).flatten, q.length ≤ N := by
    intro q hq
    rcases List.mem_cons.1 hq with rfl | hq
    · exact hlin
    · obtain ⟨l, hl, hq⟩ := List.mem_flatten.1 hq
      obtain ⟨r, hr, rfl⟩ := List.mem_map.1 hl
      exact (openPolys_length (hN r hr)).1 q hq
  have l2 : ∀ q ∈ (rs.map shiftedPolys).flatten, q.length ≤ N := by
    intro q hq
    obtain ⟨l, hl, hq⟩ := List.mem_flatten.1 hq
    obtain ⟨r, hr, rfl⟩ := List.mem_map.1 hl
    exact (openPolys_length (hN r hr)).2 q hq
  obtain ⟨b1, b2⟩ := batchPolys_ok v _ 1 [] (by simp) l1
  obtain ⟨b3, b4⟩ := batchPolys_ok v _ 1 [] (by simp) l2
  rw [List.map_cons, combine, o1, toPoly_nil, zero_add, C_1, one_mul, ← hitems, e1, hR] at b1
  rw [o2, toPoly_nil, zero_add, ← hitems, e2] at b3
  unfold openingProofs at h
  obtain ⟨x, hx, h⟩ := except_bind_ok h
  obtain ⟨y, hy, h⟩ := except_bind_ok h
  rw [← Except.ok.inj h]
  unfold batchWitness at hx hy
  rw [hck _ ((divPoly_length _ _).trans ((Nat.sub_le _ _).trans b2))] at hx
  rw [hck _ ((divPoly_length _ _).trans ((Nat.sub_le _ _).trans b4))] at hy
  refine ⟨_, _, by rw [← Except.ok.inj hx, ← Except.ok.inj hy], ?_, ?_⟩
  · refine divPoly_of_root ζ _ (c + c1) ?_ ?_
    · rw [b1, C_add]
      ring
    · rw [eval_add, h0, hA, add_zero]
  · rw [mul_comm ζ]
    exact divPoly_of_root _ _ c2 b3 (by rw [mul_comm]; exact hB)

/-! ## The prover -/

/-- the steps of the prover -/
structure Steps (gen : F) (newDom : ℕ → Option (Domain F)) (oracle : List (Call F G G2) → F)
    (extra : Option (List ℕ)) (splitter : List F → Except PErr (List (List F))) (d : Domain F) (nw : ℕ) (ck : ProverParam G)
    (rs r1 r2 r3 Rs : List (Run F G G2)) (pis : List (List F)) (quot : Domain F)
    (T1 T2 T3 T4 T5 T6 T7 : List (Call F G G2)) (τ : Option F) (α β γ ζ v : F) (q : List F) (ts : List (List F))
    (tc : List G) (les : List (Option (LkEvals F))) (lin0 lin : List F) (w w' : G)
    (lks : List (Option (LkProof F G))) : Prop where
  inputs : rs.mapM (fun r => liftC r.cs.publicInput) = .ok pis
  dom : newDom (d.size * domainSizeRatio d.size nw) = some quot
  t1 : extraMsg extra ++ List.map (fun x : VKey F G G2 × List F => Call.vkAndInput x.1 x.2)
    ((List.map (fun x : Run F G G2 => x.pk.vk) rs).zip pis) = T1
  h1 : rs.mapM (round1 d) = .ok r1
  tau : askTau oracle (r1.any (·.cs.lookup))
    (T1 ++ r1.map (Call.commitments "witness_poly_comms" ·.wireComms)) = (τ, T2)
  h2 : r1.mapM (lkRound1 d τ) = .ok r2
  t3 : T2 ++ r2.filterMap (·.lk.map (fun l => Call.commitments "h_poly_comms" l.hComms)) ++
    [Call.challenge "beta"] = T3
  beta : oracle T3 = β
  t4 : T3 ++ [Call.challenge "gamma"] = T4
  gamma : oracle T4 = γ
  h3 : r2.mapM (round2 d β γ) = .ok r3
  h4 : r3.mapM (lkRound2 d τ β γ) = .ok Rs
  t5 : T4 ++ r3.map (Call.commitment "perm_poly_comms" ·.zComm) ++
    Rs.filterMap (·.lk.map (fun l => Call.commitment "plookup_poly_comms" l.prodComm)) ++
    [Call.challenge "alpha"] = T5
  alpha : oracle T5 = α
  quo : quotPoly gen d quot nw τ α β γ Rs = .ok q
  split : splitter q = .ok ts
  comms : liftP (batchCommit ck ts) = .ok tc
  t6 : T5 ++ [Call.commitments "quot_poly_comms" tc] ++ [Call.challenge "zeta"] = T6
  zeta : oracle T6 = ζ
  evals : Rs.mapM (runLkEvals d ζ) = .ok les
  linQ : linQuot d.size ζ ts = .ok lin0
  linAll : linPolyLoop d τ α β γ ζ (Rs.zip ((Rs.map (runEvals d nw ζ)).zip les)) 1 lin0 = .ok lin
  t7 : T6 ++ (Rs.map (runEvals d nw ζ)).map (Call.evals ·) ++
    les.filterMap (·.map (Call.lkEvals ·)) ++ [Call.challenge "v"] = T7
  vv : oracle T7 = v
  opening : openingProofs d ck Rs ζ v lin = .ok (w, w')
  lookups : (Rs.zip les).mapM (fun x => runLkProof x.1 x.2) = .ok lks

theorem proveRuns_steps {gen : F} {newDom : ℕ → Option (Domain F)} {d : Domain F} (hd : newDom d.size = some d)
    {oracle : List (Call F G G2) → F} {extra : Option (List ℕ)} {splitter : List F → Except PErr (List (List F))}
    {nw : ℕ} {ck : ProverParam G} {rs : List (Run F G G2)} {π : BProof F G}
    (h : proveRunsWith splitter gen newDom oracle extra d.size nw ck rs = .ok π) :
    ∃ r1 r2 r3 Rs pis quot T1 T2 T3 T4 T5 T6 T7 τ α β γ ζ v q ts tc les lin0 lin w w' lks,
      Steps gen newDom oracle extra splitter d nw ck rs r1 r2 r3 Rs pis quot T1 T2 T3 T4 T5 T6 T7 τ α β γ ζ v q ts tc
        les lin0 lin w w' lks ∧
      { wires := Rs.map (·.wireComms), prodPerm := Rs.map (·.zComm), evals := Rs.map (runEvals d nw ζ), lookups := lks
        quot := tc, opening := w, shifted := w' } = π := by
  unfold proveRunsWith at h
  obtain ⟨pis, hpis, h⟩ := except_bind_ok h
  obtain ⟨⟨d', quot⟩, hdom, h⟩ := except_bind_ok h
  obtain ⟨rfl, hq⟩ : d = d' ∧ newDom (d.size * domainSizeRatio d.size nw) = some quot := by
    unfold proverDomains at hdom
    rw [hd] at hdom
    simp only at hdom
    cases hq : newDom (d.size * domainSizeRatio d.size nw) with
    | none => rw [hq] at hdom; cases hdom
    | some q =>
      rw [hq] at hdom
      simp only [Except.ok.injEq, Prod.mk.injEq] at hdom
      exact ⟨hdom.1, by rw [hdom.2]⟩
  simp only at h
  obtain ⟨r1, h1, h⟩ := except_bind_ok h
  generalize hT1 : extraMsg extra ++ List.map (fun x : VKey F G G2 × List F => Call.vkAndInput x.1 x.2)
    ((List.map (fun x : Run F G G2 => x.pk.vk) rs).zip pis) = T1 at h
  generalize hτ : askTau oracle (r1.any (·.cs.lookup))
    (T1 ++ r1.map (Call.commitments "witness_poly_comms" ·.wireComms)) = tt at h
  obtain ⟨τ, T2⟩ := tt
  simp only [ask] at h
  obtain ⟨r2, h2, h⟩ := except_bind_ok h
  generalize hβ' : T2 ++ r2.filterMap (·.lk.map (fun l => Call.commitments "h_poly_comms" l.hComms)) ++
    [Call.challenge "beta"] = T3 at h
  generalize hβ : oracle T3 = β at h
  generalize hγ' : T3 ++ [Call.challenge "gamma"] = T4 at h
  generalize hγ : oracle T4 = γ at h
  obtain ⟨r3, h3, h⟩ := except_bind_ok h
  obtain ⟨Rs, h4, h⟩ := except_bind_ok h
  generalize hα' : T4 ++ r3.map (Call.commitment "perm_poly_comms" ·.zComm) ++
    Rs.filterMap (·.lk.map (fun l => Call.commitment "plookup_poly_comms" l.prodComm)) ++
    [Call.challenge "alpha"] = T5 at h
  generalize hα : oracle T5 = α at h
  obtain ⟨q, hqp, h⟩ := except_bind_ok h
  obtain ⟨ts, hts, h⟩ := except_bind_ok h
  obtain ⟨tc, htc, h⟩ := except_bind_ok h
  generalize hζ' : T5 ++ [Call.commitments "quot_poly_comms" tc] ++ [Call.challenge "zeta"] = T6 at h
  generalize hζ : oracle T6 = ζ at h
  obtain ⟨les, hles, h⟩ := except_bind_ok h
  obtain ⟨lin0, hlin0, h⟩ := except_bind_ok h
  obtain ⟨lin, hlin, h⟩ := except_bind_ok h
  generalize hv' : T6 ++ (Rs.map (runEvals d nw ζ)).map (Call.evals ·) ++
    les.filterMap (·.map (Call.lkEvals ·)) ++ [Call.challenge "v"] = T7 at h
  generalize hv : oracle T7 = v at h
  obtain ⟨⟨w, w'⟩, hop, h⟩ := except_bind_ok h
  obtain ⟨lks, hlks, h⟩ := except_bind_ok h
  simp only [Except.ok.injEq] at h
  exact ⟨r1, r2, r3, Rs, pis, quot, T1, T2, T3, T4, T5, T6, T7, τ, α, β, γ, ζ, v, q, ts, tc, les, lin0, lin, w, w', lks, ⟨hpis, hq, hT1, h1, hτ, h2, hβ', hβ, hγ', hγ, h3, h4, hα', hα, hqp, hts, htc, hζ', hζ, hles, hlin0, hlin,
    hv', hv, hop, hlks⟩, h⟩

/-- what is used of the splitting of the quotient -/
def Splits (d : Domain F) (nw : ℕ) (splitter : List F → Except PErr (List (List F))) : Prop :=
  ∀ q ts, splitter q = .ok ts → (toPoly q).natDegree = Pcs.degree q → (toPoly q).natDegree ≤ nw * (d.size + 1) + 2 →
    ts ≠ [] ∧ joinQuot d (ts.map toPoly) = toPoly q ∧ ∀ t ∈ ts, t.length ≤ d.size + 3

theorem quotient_degree {d : Domain F} (hd : Good d) {Is : List (Inst F)} {nw : ℕ}
    (h : ∀ I ∈ Is, I.Tight d.size ∧ I.nw = nw) {τ α β γ : F} {bs : List F} {T : F[X]}
    (hT : (X ^ d.size - 1) * T = batch d τ α β γ Is bs) : T.natDegree ≤ nw * (d.size + 1) + 2 := by
  by_cases h0 : T = 0
  · rw [h0]
    simp
  have h1 := batch_tight hd h τ α β γ bs
  have hmon : (X ^ d.size - 1 : F[X]).Monic := monic_X_pow_sub_C 1 (size_pos d).ne'
  have hnd : (X ^ d.size - 1 : F[X]).natDegree = d.size := natDegree_X_pow_sub_C
  rw [← hT, hmon.natDegree_mul' h0, hnd] at h1
  omega

/-- what the prover leaves in the proof -/
theorem proveRunsWith_ok {com : F[X] →ₗ[F] G} {d : Domain F} {ok : VerifierParam G G2} {ck : ProverParam G}
    (hck : Commits com (d.size + 3) ck) {gen : F} (hgen : gen ≠ 0) {newDom : ℕ → Option (Domain F)} {nw : ℕ}
    (hd : newDom d.size = some d)
    (hquot : ∀ quot, newDom (d.size * domainSizeRatio d.size nw) = some quot →
      Finer d quot ∧ nw * (d.size + 1) + 2 < quot.size)
    {oracle : List (Call F G G2) → F} {extra : Option (List ℕ)} {splitter : List F → Except PErr (List (List F))}
    (hspl : Splits d nw splitter) {rs : List (Run F G G2)}
    {b : Bool} (hlk : ∀ r ∈ rs, r.cs.lookup = b)
    (hrun : ∀ r₀ ∈ rs, ∀ (τ : Option F) (β γ : F) (r : Run F G G2), (b → τ.isSome) → Ran d τ β γ r₀ r →
      ∃ I, Tracks com d ok r I ∧ I.nw = nw ∧
        ∀ e ∈ I.constraints d (τ.getD 0) β γ, ∀ j < d.size, e.eval (d.gen ^ j) = 0)
    {π : BProof F G} (h : proveRunsWith splitter gen newDom oracle extra d.size nw ck rs = .ok π) :
    ∃ (Is : List (Inst F)) (ch : Chal F) (τ : F) (ts : List F[X]) (W W' : F[X]),
      π = proof com (Is.map (fun I => (I, truth d ch.ζ I))) ts W W' ∧
      rs.map (·.pk.vk) = Is.map (fun I => I.key com d ok) ∧
      rs.mapM (fun r => liftC r.cs.publicInput) = .ok (Is.map (·.inputs)) ∧
      challenges oracle extra (Is.map (fun I => I.key com d ok)) (Is.map (·.inputs)) π = ch ∧
      Setting d ch τ (Is.map (fun I => (I, truth d ch.ζ I))) ts ∧
      (X - C ch.ζ) * W = residue d ch τ (Is.map (fun I => (I, truth d ch.ζ I))) ts +
        (parts ch.v (allItems (Is.map (fun I => (I, truth d ch.ζ I)))) ch.v 1).1 ∧
      (X - C (ch.ζ * d.gen)) * W' = (parts ch.v (allItems (Is.map (fun I => (I, truth d ch.ζ I)))) ch.v 1).2 ∧
      (∀ I ∈ Is, I.Tight d.size ∧ I.nw = nw) ∧
      List.Forall₂ (fun r₀ I => ∃ r, Ran d ch.τ ch.β ch.γ r₀ r ∧ Tracks com d ok r I) rs Is ∧
      ∃ Rs quot q ts₀, List.Forall₂ (Ran d ch.τ ch.β ch.γ) rs Rs ∧
        newDom (d.size * domainSizeRatio d.size nw) = some quot ∧
        quotPoly gen d quot nw ch.τ ch.α ch.β ch.γ Rs = .ok q ∧
        (toPoly q).natDegree = Pcs.degree q ∧ (X ^ d.size - 1) * toPoly q =
          batch d τ ch.α ch.β ch.γ Is (alphaBases ch.α (firstLookup Is) Is.length) ∧
        splitter q = .ok ts₀ ∧ ts = ts₀.map toPoly := by
  obtain ⟨r1, r2, r3, Rs, pis, quot, T1, T2, T3, T4, T5, T6, T7, τ, α, β, γ, ζ, v, q, ts, tc, les, lin0, lin, w, w', lks, ⟨hpis, hq, hT1, h1, hτ, h2, hβ', hβ, hγ', hγ, h3, h4, hα', hα, hqp', hts, htc, hζ', hζ, hles, hlin0, hlin,
    hv', hv, hop, hlks⟩, h⟩ := proveRuns_steps hd h
  obtain ⟨hfine, hsize⟩ := hquot quot hq
  -- the runs
  have hcs1 := mapM_preserve (φ := fun r : Run F G G2 => (r.cs, r.pk)) (ψ := fun r => (r.cs, r.pk))
    (fun a b h => by rw [(round1_keeps h).1, (round1_keeps h).2]) h1
  have hany : r1.any (·.cs.lookup) = rs.any (·.cs.lookup) := by
    have e : ∀ l : List (Run F G G2), l.any (·.cs.lookup) = (l.map (fun r => (r.cs, r.pk))).any (·.1.lookup) := by
      intro l
      rw [List.any_map]
      rfl
    rw [e, e, hcs1]
  have hτ1 : b → rs ≠ [] → τ.isSome := by
    intro hb hne
    have : rs.any (·.cs.lookup) = true := by
      obtain _ | ⟨r, l⟩ := rs
      · exact absurd rfl hne
      · simp [hlk r (by simp), hb]
    rw [hany, this] at hτ
    simp only [askTau, if_true, ask, Prod.mk.injEq] at hτ
    rw [← hτ.1]
    rfl
  have hran : List.Forall₂ (Ran d τ β γ) rs Rs := by
    have := forall₂_comp (mapM_forall₂ h1) (forall₂_comp (mapM_forall₂ h2)
      (forall₂_comp (mapM_forall₂ h3) (mapM_forall₂ h4)))
    refine this.imp fun a b hab => ?_
    obtain ⟨x, hx, y, hy, z, hz, hb⟩ := hab
    exact ⟨x, y, z, hx, hy, hz, hb⟩
  obtain ⟨Is, hIs⟩ := forall₂_choose (P := fun r I => Tracks com d ok r I ∧ I.nw = nw ∧
      ∀ e ∈ I.constraints d (τ.getD 0) β γ, ∀ j < d.size, e.eval (d.gen ^ j) = 0) hran
    (fun a ha r hr => hrun a ha τ β γ r (fun hb => hτ1 hb (List.ne_nil_of_mem ha)) hr)
  have hpolys : List.Forall₂ (PolysAre d) Rs Is := hIs.imp fun _ _ h => h.1.polys
  have hlen : ∀ r ∈ Rs, RunLen (d.size + 3) r := forall₂_left hIs fun _ _ h => h.1.len
  have hcs : Rs.map (fun r => (r.cs, r.pk)) = rs.map (fun r => (r.cs, r.pk)) := by
    rw [mapM_preserve (φ := fun r : Run F G G2 => (r.cs, r.pk)) (ψ := fun r => (r.cs, r.pk))
      (fun a b h => by rw [(lkRound2_keeps h).1, (lkRound2_keeps h).2.1]) h4,
      mapM_preserve (φ := fun r : Run F G G2 => (r.cs, r.pk)) (ψ := fun r => (r.cs, r.pk))
      (fun a b h => by rw [(round2_keeps h).1, (round2_keeps h).2.1]) h3,
      mapM_preserve (φ := fun r : Run F G G2 => (r.cs, r.pk)) (ψ := fun r => (r.cs, r.pk))
      (fun a b h => by rw [(lkRound1_keeps h).1, (lkRound1_keeps h).2.1]) h2, hcs1]
  have hvks : rs.map (·.pk.vk) = Is.map (fun I => I.key com d ok) := by
    have e : ∀ l : List (Run F G G2), l.map (·.pk.vk) = (l.map (fun r => (r.cs, r.pk))).map (·.2.vk) := by
      intro l
      rw [List.map_map]
      rfl
    rw [e, ← hcs, ← e]
    exact forall₂_map_eq hIs fun _ _ h => h.1.vk
  have hlookR : ∀ r ∈ Rs, r.cs.lookup = b := by
    have : Rs.map (·.cs.lookup) = rs.map (·.cs.lookup) := by
      have e : ∀ l : List (Run F G G2), l.map (·.cs.lookup) = (l.map (fun r => (r.cs, r.pk))).map (·.1.lookup) := by
        intro l
        rw [List.map_map]
        rfl
      rw [e, hcs, ← e]
    intro r hr
    have hm := List.mem_map_of_mem (f := fun r : Run F G G2 => r.cs.lookup) hr
    rw [this] at hm
    obtain ⟨r', hr', e⟩ := List.mem_map.1 hm
    rw [← e]
    exact hlk r' hr'
  have hlookI : ∀ I ∈ Is, I.lookup.isSome = b := by
    have : Is.map (fun I => I.lookup.isSome) = Rs.map (·.cs.lookup) :=
      (forall₂_map_eq hIs fun _ _ h => h.1.lookup).symm
    intro I hI
    have hm := List.mem_map_of_mem (f := fun I : Inst F => I.lookup.isSome) hI
    rw [this] at hm
    obtain ⟨r', hr', e⟩ := List.mem_map.1 hm
    rw [← e]
    exact hlookR r' hr'
  have hpub : rs.mapM (fun r => liftC r.cs.publicInput) = .ok (Is.map (·.inputs)) := by
    have e : ∀ l : List (Run F G G2), l.mapM (fun r => liftC r.cs.publicInput) =
        (l.map (fun r => (r.cs, r.pk))).mapM (fun x => liftC x.1.publicInput) := by
      intro l
      induction l with
      | nil => rfl
      | cons a l ih => rw [List.mapM_cons, List.map_cons, List.mapM_cons, ih]
    rw [e, ← hcs, ← e]
    exact forall₂_mapM hIs fun _ _ h => by rw [h.1.publicInput]; rfl
  obtain rfl : pis = Is.map (·.inputs) := by
    rw [hpis] at hpub
    exact Except.ok.inj hpub
  have hτI : ∀ I ∈ Is, I.lookup.isSome → τ = some (τ.getD 0) := by
    intro I hI hs
    have hne : rs ≠ [] := by
      rintro rfl
      rw [List.map_nil] at hvks
      simp only [List.nil_eq, List.map_eq_nil_iff] at hvks
      rw [hvks] at hI
      simp at hI
    obtain ⟨t, ht⟩ := Option.isSome_iff_exists.1 (hτ1 ((hlookI I hI) ▸ hs) hne)
    rw [ht]
    rfl
  -- quotient
  have htight : ∀ I ∈ Is, I.Tight d.size ∧ I.nw = nw := fun I hI =>
    ⟨forall₂_right hIs (P := fun I => I.Tight d.size) (fun _ _ h => h.1.tight) I hI,
      forall₂_right hIs (P := fun I => I.nw = nw) (fun _ _ h => h.2.1) I hI⟩
  obtain ⟨hIne, hquo, hqdeg⟩ := quotPoly_ok hfine hgen hsize hpolys htight hlookI hτI
    (forall₂_right hIs (P := fun I => ∀ e ∈ I.constraints d (τ.getD 0) β γ, ∀ j < d.size, e.eval (d.gen ^ j) = 0)
      (fun _ _ h => h.2.2)) hqp'
  obtain ⟨htne, hjoin, htlen⟩ := hspl q ts hts hqdeg (quotient_degree hfine.good htight hquo)
  have htc' : tc = (ts.map toPoly).map com := by
    rw [hck.batch htlen] at htc
    exact (Except.ok.inj htc).symm
  -- evaluations
  have hes : Rs.map (runEvals d nw ζ) = Is.map (fun I => I.evals (truth d ζ I)) :=
    forall₂_map_eq hIs fun r I h => by rw [← h.2.1]; exact runEvals_ok h.1.polys ζ
  have hles' : les = Is.map (fun I => I.lookup.map (fun _ => (truth d ζ I).lk)) := by
    rw [forall₂_mapM hIs (g := fun I => I.lookup.map (fun _ => (truth d ζ I).lk))
      fun r I h => runLkEvals_ok h.1.polys h.1.lookup ζ] at hles
    exact (Except.ok.inj hles).symm
  have hlks' : lks = Is.map (fun I => I.lookup.map (fun l => Inst.lkProof com l (truth d ζ I))) := by
    rw [hles'] at hlks
    have : ∀ {Rs : List (Run F G G2)} {Is : List (Inst F)}, List.Forall₂ (Tracks com d ok) Rs Is →
        (Rs.zip (Is.map (fun I => I.lookup.map (fun _ => (truth d ζ I).lk)))).mapM (fun x => runLkProof x.1 x.2) =
          .ok (Is.map (fun I => I.lookup.map (fun l => Inst.lkProof com l (truth d ζ I)))) := by
      intro Rs Is h
      induction h with
      | nil => rfl
      | @cons r I Rs Is h1 _ ih =>
        rw [List.map_cons, List.zip_cons_cons, List.mapM_cons, ih]
        have : runLkProof r (I.lookup.map (fun _ => (truth d ζ I).lk)) =
            .ok (I.lookup.map (fun l => Inst.lkProof com l (truth d ζ I))) := by
          unfold runLkProof
          rw [h1.lookup]
          have e1 := h1.hComms
          have e2 := h1.prodComm
          rcases h1.polys.lookup.cases with ⟨-, -, e3⟩ | ⟨a, o, l, -, e4, e3, -⟩
          · rw [e3]
            rfl
          · rw [e3, e4] at e1 e2
            simp only [Option.map_some, Option.some.injEq] at e1 e2
            rw [e3, e4]
            simp only [Option.isSome_some, if_true, Option.map_some, e1, e2]
            rfl
        rw [this]
        rfl
    rw [this (hIs.imp fun _ _ h => h.1)] at hlks
    exact (Except.ok.inj hlks).symm
  have hwc : Rs.map (·.wireComms) = Is.map (fun I => (List.range I.nw).map (fun i => com (I.w i))) :=
    forall₂_map_eq hIs fun r I h => h.1.wireComms
  have hzc : Rs.map (·.zComm) = Is.map (fun I => com I.z) := forall₂_map_eq hIs fun r I h => h.1.zComm
  -- the challenges
  have hwc1 : r1.map (·.wireComms) = Rs.map (·.wireComms) := by
    rw [mapM_preserve (φ := fun r : Run F G G2 => r.wireComms) (ψ := fun r => r.wireComms)
      (fun a b h => (lkRound2_keeps h).2.2.1) h4,
      mapM_preserve (φ := fun r : Run F G G2 => r.wireComms) (ψ := fun r => r.wireComms)
      (fun a b h => (round2_keeps h).2.2.1) h3,
      mapM_preserve (φ := fun r : Run F G G2 => r.wireComms) (ψ := fun r => r.wireComms)
      (fun a b h => (lkRound1_keeps h).2.2) h2]
  have hzc3 : r3.map (·.zComm) = Rs.map (·.zComm) :=
    (mapM_preserve (φ := fun r : Run F G G2 => r.zComm) (ψ := fun r => r.zComm)
      (fun a b h => (lkRound2_keeps h).2.2.2.1) h4).symm
  have hhc2 : r2.map (fun r => r.lk.map (·.hComms)) = Rs.map (fun r => r.lk.map (·.hComms)) := by
    rw [mapM_preserve (φ := fun r : Run F G G2 => r.lk.map (·.hComms)) (ψ := fun r => r.lk.map (·.hComms))
      (fun a b h => (lkRound2_keeps h).2.2.2.2) h4,
      mapM_preserve (φ := fun r : Run F G G2 => r.lk.map (·.hComms)) (ψ := fun r => r.lk.map (·.hComms))
      (fun a b h => by rw [(round2_keeps h).2.2.2]) h3]
  have hhc : Rs.map (fun r => r.lk.map (·.hComms)) = Is.map (fun I => I.lookup.map (fun l => [com l.h1, com l.h2])) :=
    forall₂_map_eq hIs fun r I h => h.1.hComms
  have hpc : Rs.map (fun r => r.lk.map (·.prodComm)) = Is.map (fun I => I.lookup.map (fun l => com l.prod)) :=
    forall₂_map_eq hIs fun r I h => h.1.prodComm
  set u := (challenges oracle extra (Is.map (fun I => I.key com d ok)) (Is.map (·.inputs)) π).u with hu
  have hch : challenges oracle extra (Is.map (fun I => I.key com d ok)) (Is.map (·.inputs)) π =
      ⟨τ, α, β, γ, ζ, v, u⟩ := by
    have a1 : (Is.map (fun I => I.key com d ok)).any (·.lookup.isSome) = r1.any (·.cs.lookup) := by
      rw [hany]
      have e1 : ∀ l : List (Run F G G2), l.any (·.cs.lookup) = (l.map (fun r => (r.cs, r.pk))).any (·.1.lookup) := by
        intro l
        rw [List.any_map]
        rfl
      have e2 : ∀ l : List (Run F G G2), l.any (·.cs.lookup) = (l.map (·.cs.lookup)).any id := by
        intro l
        rw [List.any_map]
        rfl
      rw [e1, ← hcs, ← e1, e2, forall₂_map_eq hIs (g := fun I => I.lookup.isSome) fun _ _ h => h.1.lookup,
        List.any_map, List.any_map]
      congr 1
      funext I
      simp [Inst.key]
    have a2 : π.wires.map (Call.commitments (F := F) (G2 := G2) "witness_poly_comms" ·) =
        r1.map (Call.commitments "witness_poly_comms" ·.wireComms) := by
      rw [← h]
      simp only
      rw [← hwc1, List.map_map]
      rfl
    have a3 : π.lookups.filterMap (·.map (fun l => Call.commitments (F := F) (G2 := G2) "h_poly_comms" l.h)) =
        r2.filterMap (·.lk.map (fun l => Call.commitments "h_poly_comms" l.hComms)) := by
      rw [← h]
      simp only
      rw [hlks', List.filterMap_map]
      have e1 : ∀ l : List (Run F G G2), l.filterMap (·.lk.map (fun l => Call.commitments (F := F) (G2 := G2)
          "h_poly_comms" l.hComms)) = (l.map (fun r => r.lk.map (·.hComms))).filterMap
            (·.map (fun c => Call.commitments "h_poly_comms" c)) := by
        intro l
        rw [List.filterMap_map]
        congr 1
        funext r
        simp [Option.map_map, Function.comp_def]
      rw [e1, hhc2, hhc, List.filterMap_map]
      congr 1
      funext I
      simp only [Function.comp_apply, Option.map_map]
      rfl
    have a4 : π.prodPerm.map (Call.commitment (F := F) (G2 := G2) "perm_poly_comms" ·) =
        r3.map (Call.commitment "perm_poly_comms" ·.zComm) := by
      rw [← h]
      simp only
      rw [← hzc3, List.map_map]
      rfl
    have a5 : π.lookups.filterMap (·.map (fun l => Call.commitment (F := F) (G2 := G2) "plookup_poly_comms" l.prod)) =
        Rs.filterMap (·.lk.map (fun l => Call.commitment "plookup_poly_comms" l.prodComm)) := by
      rw [← h]
      simp only
      rw [hlks', List.filterMap_map]
      have e1 : ∀ l : List (Run F G G2), l.filterMap (·.lk.map (fun l => Call.commitment (F := F) (G2 := G2)
          "plookup_poly_comms" l.prodComm)) = (l.map (fun r => r.lk.map (·.prodComm))).filterMap
            (·.map (fun c => Call.commitment "plookup_poly_comms" c)) := by
        intro l
        rw [List.filterMap_map]
        congr 1
        funext r
        simp [Option.map_map, Function.comp_def]
      rw [e1, hpc, List.filterMap_map]
      congr 1
      funext I
      simp only [Function.comp_apply, Option.map_map]
      rfl
    have a6 : π.evals.map (Call.evals (G := G) (G2 := G2) ·) = (Rs.map (runEvals d nw ζ)).map (Call.evals ·) := by
      rw [← h]
    have a7 : π.lookups.filterMap (·.map (fun l => Call.lkEvals (G := G) (G2 := G2) l.evals)) =
        les.filterMap (·.map (Call.lkEvals ·)) := by
      rw [← h]
      simp only
      rw [hlks', hles', List.filterMap_map, List.filterMap_map]
      congr 1
      funext I
      simp only [Function.comp_apply, Option.map_map]
      rfl
    have a8 : π.quot = tc := by rw [← h]
    have key : ∀ X, X = challenges oracle extra (Is.map (fun I => I.key com d ok)) (Is.map (·.inputs)) π →
        X = ⟨τ, α, β, γ, ζ, v, X.u⟩ := by
      intro X hX
      unfold challenges at hX
      rw [a1, a2, a3, a4, a5, a6, a7, a8, ← hvks, hT1] at hX
      simp only at hX
      rw [hτ] at hX
      simp only [ask] at hX
      rw [hβ', hβ, hγ', hγ, hα', hα, hζ', hζ, hv', hv] at hX
      rw [hX]
    rw [hu]
    exact key _ rfl
  have hset : Setting d ⟨τ, α, β, γ, ζ, v, u⟩ (τ.getD 0) (Is.map (fun I => (I, truth d ζ I))) (ts.map toPoly) := by
    refine ⟨hfine.good.prim, hfine.offset, hfine.size, by simpa using hIne, ?_, ?_, by simpa using htne⟩
    · intro x hx
      obtain ⟨I, hI, rfl⟩ := List.mem_map.1 hx
      exact forall₂_right hIs (P := fun I => IsInputs d I.merged I.inputs I.pi) (fun _ _ h => h.1.inputs) I hI
    · intro x hx hs
      obtain ⟨I, hI, rfl⟩ := List.mem_map.1 hx
      exact hτI I hI hs
  -- linearization
  obtain ⟨p0, e1, e2, e3⟩ := linQuot_ok hfine.offset ζ htne htlen
  obtain rfl : p0 = lin0 := by rw [e1] at hlin0; exact Except.ok.inj hlin0
  obtain ⟨p1, e4, e5, e6⟩ := linPolyLoop_ok hfine.good hfine.size ⟨τ, α, β, γ, ζ, v, u⟩ hpolys hlen hlookI hτI 1 e3
  rw [hes, hles'] at hlin
  obtain rfl : p1 = lin := by
    have : linPolyLoop d τ α β γ ζ _ 1 p0 = _ := e4
    rw [this] at hlin
    exact Except.ok.inj hlin
  have hIs' : (Is.map (fun I => (I, truth d ζ I))).map (·.1) = Is := by
    rw [List.map_map]
    exact List.map_id _
  have hfirst : firstLookup Is = b := by
    obtain _ | ⟨I, Js⟩ := Is
    · exact absurd rfl hIne
    · exact hlookI I (by simp)
  have hres : ∃ c, toPoly p1 = residue d ⟨τ, α, β, γ, ζ, v, u⟩ (τ.getD 0) (Is.map (fun I => (I, truth d ζ I)))
      (ts.map toPoly) + C c := by
    unfold residue
    simp only
    rw [hIs', hfirst, List.length_map, alphaBases_eq _ _ (by simpa using hIne), e5, e2]
    simp only [one_mul]
    generalize (List.zipWith (fun (x : Inst F × Claims F) b => b *
      x.1.const x.2 d ⟨τ, α, β, γ, ζ, v, u⟩ ((lag d 0).eval ζ) ((lag d (d.size - 1)).eval ζ))
      (Is.map (fun I => (I, truth d ζ I))) _).sum = a
    exact ⟨-a, by simp only [C_neg]; ring⟩
  obtain ⟨c, hres⟩ := hres
  have h0 : (residue d ⟨τ, α, β, γ, ζ, v, u⟩ (τ.getD 0) (Is.map (fun I => (I, truth d ζ I)))
      (ts.map toPoly)).eval ζ = 0 := by
    have := residue_eval hfine.good.prim hfine.offset ⟨τ, α, β, γ, ζ, v, u⟩ (τ.getD 0)
      (Is.map (fun I => (I, truth d ζ I))) (fun x hx => by
        obtain ⟨I, -, rfl⟩ := List.mem_map.1 hx
        exact ⟨fun _ _ => rfl, fun _ _ => rfl, rfl, fun l hl => by
          have hl : I.lookup = some l := hl
          simp [truth, hl]⟩) (ts.map toPoly)
    simp only at this
    rw [this, hIs', List.length_map, hjoin, ← hquo]
    simp
  obtain ⟨W, W', hW, hW1, hW2⟩ := openingProofs_ok hck hpolys hlen ζ v e6 hres h0 hop
  refine ⟨Is, ⟨τ, α, β, γ, ζ, v, u⟩, τ.getD 0, ts.map toPoly, W, W', ?_, hvks, hpub, hch, hset, hW1, hW2,
    htight, (forall₂_comp hran hIs).imp fun _ _ ⟨r, h1, h2⟩ => ⟨r, h1, h2.1⟩, Rs, quot, q, ts, hran, hq, hqp', hqdeg,
    hquo, hts, rfl⟩
  rw [← h, hwc, hzc, hes, hlks', htc']
  simp only [Prod.mk.injEq] at hW
  obtain ⟨rfl, rfl⟩ := hW
  simp only [proof, List.map_map, Function.comp_def]

theorem splitQuot_splits (d : Domain F) {nw : ℕ} (hnw : 5 ≤ nw) (rnd : ℕ → F) :
    Splits d nw (splitQuot d.size nw rnd) := fun _ _ h _ _ => splitQuot_ok hnw h

theorem proveRuns_ok {com : F[X] →ₗ[F] G} {d : Domain F} {ok : VerifierParam G G2} {ck : ProverParam G}
    (hck : Commits com (d.size + 3) ck) {gen : F} (hgen : gen ≠ 0) {newDom : ℕ → Option (Domain F)} {nw : ℕ}
    (hnw : 5 ≤ nw)
    (hd : newDom d.size = some d)
    (hquot : ∀ quot, newDom (d.size * domainSizeRatio d.size nw) = some quot →
      Finer d quot ∧ nw * (d.size + 1) + 2 < quot.size)
    {oracle : List (Call F G G2) → F} {extra : Option (List ℕ)} {quotMask : ℕ → F} {rs : List (Run F G G2)}
    {b : Bool} (hlk : ∀ r ∈ rs, r.cs.lookup = b)
    (hrun : ∀ r₀ ∈ rs, ∀ (τ : Option F) (β γ : F) (r : Run F G G2), (b → τ.isSome) → Ran d τ β γ r₀ r →
      ∃ I, Tracks com d ok r I ∧ I.nw = nw ∧
        ∀ e ∈ I.constraints d (τ.getD 0) β γ, ∀ j < d.size, e.eval (d.gen ^ j) = 0)
    {π : BProof F G} (h : proveRuns gen newDom oracle extra quotMask d.size nw ck rs = .ok π) :
    ∃ (Is : List (Inst F)) (ch : Chal F) (τ : F) (ts : List F[X]) (W W' : F[X]),
      π = proof com (Is.map (fun I => (I, truth d ch.ζ I))) ts W W' ∧
      rs.map (·.pk.vk) = Is.map (fun I => I.key com d ok) ∧
      rs.mapM (fun r => liftC r.cs.publicInput) = .ok (Is.map (·.inputs)) ∧
      challenges oracle extra (Is.map (fun I => I.key com d ok)) (Is.map (·.inputs)) π = ch ∧
      Setting d ch τ (Is.map (fun I => (I, truth d ch.ζ I))) ts ∧
      (X - C ch.ζ) * W = residue d ch τ (Is.map (fun I => (I, truth d ch.ζ I))) ts +
        (parts ch.v (allItems (Is.map (fun I => (I, truth d ch.ζ I)))) ch.v 1).1 ∧
      (X - C (ch.ζ * d.gen)) * W' = (parts ch.v (allItems (Is.map (fun I => (I, truth d ch.ζ I)))) ch.v 1).2 ∧
      (∀ I ∈ Is, I.Tight d.size ∧ I.nw = nw) ∧
      (batch d τ ch.α ch.β ch.γ Is (alphaBases ch.α (firstLookup Is) Is.length)).coeff
        (d.size + 2 + nw * (d.size + 1)) ≠ 0 ∧
      List.Forall₂ (fun r₀ I => ∃ r, Ran d ch.τ ch.β ch.γ r₀ r ∧ Tracks com d ok r I) rs Is ∧
      ∃ q ts₀, (X ^ d.size - 1) * toPoly q =
          batch d τ ch.α ch.β ch.γ Is (alphaBases ch.α (firstLookup Is) Is.length) ∧
        splitQuot d.size nw quotMask q = .ok ts₀ ∧ ts = ts₀.map toPoly := by
  obtain ⟨Is, ch, τ, ts, W, W', h1, h2, h3, h4, h5, h6, h7, h8, h9, Rs, quot, q, ts₀, -, -, -, hqdeg, hquo, hts, h10⟩ :=
    proveRunsWith_ok (com := com) (ok := ok) hck hgen hd hquot (splitQuot_splits d hnw quotMask) hlk hrun h
  refine ⟨Is, ch, τ, ts, W, W', h1, h2, h3, h4, h5, h6, h7, h8, ?_, h9, q, ts₀, hquo, hts, h10⟩
  have hdeg : Pcs.degree q = nw * (d.size + 1) + 2 := by
    unfold splitQuot at hts
    split at hts
    · cases hts
    · rename_i h0
      exact not_not.1 h0
  rw [← hquo, show d.size + 2 + nw * (d.size + 1) = d.size + (nw * (d.size + 1) + 2) by ring,
    coeff_mul_add_eq_of_natDegree_le (nd_sub (natDegree_X_pow_le _) (by simp)) (by rw [hqdeg, hdeg])]
  have e1 : (X ^ d.size - 1 : F[X]).coeff d.size = 1 := by
    rw [coeff_sub, coeff_X_pow_self, coeff_one, if_neg (size_pos d).ne', sub_zero]
  rw [e1, one_mul, ← hdeg, ← hqdeg, coeff_natDegree, leadingCoeff_ne_zero]
  intro h0
  rw [h0, natDegree_zero] at hqdeg
  omega

end Verif.Plonk
