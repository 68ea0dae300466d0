import Verif.Plonk.ProofFields
import Verif.Props.Conversion
import Mathlib.Algebra.Field.ZMod
import Mathlib.Tactic.NormNum.Prime

/-!
# C87: proofs and keys as lists of base field elements
-/

namespace Verif.Props.ProofFields

open Verif.Plonk Verif.Conv Verif.Pcs Verif.Props.Conv

/-! ## Evaluations -/

section
variable {F : Type}

/-- **C87, evaluations**: lists of evaluations of TurboPlonk and of UltraPlonk are converted back to the evaluations -/
theorem C87_evals_round_trip (e : Evals F) (n : ℕ) (hn : n = 5 ∨ n = 6) (hw : e.wires.length = n) (hs : e.sigmas.length = n - 1) :
    evalsTryFrom (evalsToVec e) = .ok e := by
  obtain ⟨w, s, p⟩ := e
  simp only at hw hs
  have hl : (evalsToVec ⟨w, s, p⟩).length = n + n := by simp [evalsToVec, hw, hs]; omega
  unfold evalsTryFrom
  rw [hl, if_pos (by rcases hn with rfl | rfl <;> decide)]
  have h1 : (evalsToVec ⟨w, s, p⟩)[n + n - 1]? = some p := by
    simp only [evalsToVec]
    rw [List.getElem?_append_right (by simp only [List.length_append, hw, hs]; omega)]
    simp only [List.length_append, hw, hs]
    rw [show n + n - 1 - (n + (n - 1)) = 0 by omega]
    rfl
  have h2 : (evalsToVec ⟨w, s, p⟩).take (n + n - 1) = w ++ s := by
    simp only [evalsToVec]
    rw [List.take_left' (by simp only [List.length_append, hw, hs]; omega)]
  have h3 : (n + n) / 2 = n := by omega
  have h4 : (evalsToVec ⟨w, s, p⟩).take n = w := by
    simp only [evalsToVec, List.append_assoc]
    rw [List.take_left' hw]
  rw [h1, h2, h3, h4, List.drop_left' hw]

/-- **C87, evaluations**: accepted lists are those of the two lengths; converting back gives the list -/
theorem C87_evals_back (v : List F) (e : Evals F) :
    evalsTryFrom v = .ok e ↔ evalsToVec e = v ∧
      (e.wires.length = 5 ∧ e.sigmas.length = 4 ∨ e.wires.length = 6 ∧ e.sigmas.length = 5) := by
  constructor
  · intro h
    unfold evalsTryFrom at h
    split_ifs at h with hl
    cases he : v[v.length - 1]? with
    | none => rw [he] at h; cases h
    | some x =>
      rw [he] at h
      simp only [Except.ok.injEq] at h
      subst h
      simp only [gateWidth] at hl
      refine ⟨?_, by simp only [List.length_take, List.length_drop]; omega⟩
      simp only [evalsToVec]
      have h1 : v.take (v.length / 2) = (v.take (v.length - 1)).take (v.length / 2) := by
        rw [List.take_take, Nat.min_eq_left (by omega)]
      rw [h1, List.take_append_drop]
      obtain ⟨hlt, hx⟩ := List.getElem?_eq_some_iff.1 he
      subst hx
      conv_rhs => rw [← List.take_append_drop (v.length - 1) v]
      rw [List.drop_eq_getElem_cons hlt, List.drop_eq_nil_of_le (by omega)]
  · rintro ⟨rfl, h | h⟩
    · exact C87_evals_round_trip e 5 (.inl rfl) h.1 h.2
    · exact C87_evals_round_trip e 6 (.inr rfl) h.1 h.2

/-- other lengths are refused -/
theorem C87_evals_refused (v : List F) (h1 : v.length ≠ 10) (h2 : v.length ≠ 12) : evalsTryFrom v = .error .parameter := by
  unfold evalsTryFrom
  rw [if_neg (by simp only [gateWidth]; omega)]

end

/-! ## Proofs -/

section
variable {q r : ℕ}

/-- coordinates of finite points, as `(x, y)` -/
def coords (p : APoint (ZMod q)) : ZMod q × ZMod q := (p.x, p.y)

/-- a finite point of the curve's subgroup -/
def Finite (C : SwCurve (ZMod q)) (p : APoint (ZMod q)) : Prop := p.inf = false ∧ C.on p.x p.y = true

instance (C : SwCurve (ZMod q)) (p : APoint (ZMod q)) : Decidable (Finite C p) := by unfold Finite; infer_instance

/-- a point of the curve's subgroup, or the identity -/
def Point (C : SwCurve (ZMod q)) (p : APoint (ZMod q)) : Prop := Finite C p ∨ p = APoint.identity

/-- the commitments of a proof, in the order of the fields -/
def commitments {F G : Type} (P : Proof F G) : List G := P.wires ++ P.quot ++ [P.prodPerm, P.opening, P.shifted]

/-- the shape of TurboPlonk proofs -/
structure TurboShape {F G : Type} (P : Proof F G) : Prop where
  wires : P.wires.length = 5
  quot : P.quot.length = 5
  evals : P.evals.wires.length = 5
  sigmas : P.evals.sigmas.length = 4
  lookup : P.lookup = none

theorem affineNew_iff (C : SwCurve (ZMod q)) (x y : ZMod q) (p : APoint (ZMod q)) :
    affineNew C x y = .ok p ↔ Finite C p ∧ p.x = x ∧ p.y = y := by
  unfold affineNew Finite
  obtain ⟨px, py, pi⟩ := p
  constructor
  · intro h
    split_ifs at h with hc
    simp only [Except.ok.injEq, APoint.mk.injEq] at h
    obtain ⟨rfl, rfl, rfl⟩ := h
    exact ⟨⟨rfl, hc⟩, rfl, rfl⟩
  · rintro ⟨⟨h1, h2⟩, h3, h4⟩
    simp only at h1 h2 h3 h4
    subst h1 h3 h4
    rw [if_pos h2]

theorem affineNew_panic (C : SwCurve (ZMod q)) (x y : ZMod q) (e : FieldsErr) (h : affineNew C x y = .error e) :
    e = .panic ∧ C.on x y = false := by
  unfold affineNew at h
  split_ifs at h with hc
  simp only [Except.error.injEq] at h
  exact ⟨h.symm, by simpa using hc⟩

theorem newAll_iff (C : SwCurve (ZMod q)) : ∀ (l : List (ZMod q × ZMod q)) (ps : List (APoint (ZMod q))),
    newAll C l = .ok ps ↔ (∀ p ∈ ps, Finite C p) ∧ ps.map coords = l := by
  intro l
  induction l with
  | nil =>
    intro ps
    simp only [newAll, Except.ok.injEq, List.map_eq_nil_iff]
    constructor
    · rintro rfl; simp
    · exact fun h => h.2.symm
  | cons xy l ih =>
    intro ps
    obtain ⟨x, y⟩ := xy
    simp only [newAll]
    constructor
    · intro h
      cases h1 : affineNew C x y with
      | error e => rw [h1] at h; cases h
      | ok p =>
        rw [h1] at h
        cases h2 : newAll C l with
        | error e => rw [h2] at h; cases h
        | ok ps' =>
          rw [h2] at h
          simp only [Except.ok.injEq] at h
          subst h
          obtain ⟨h3, h4, h5⟩ := (affineNew_iff C x y p).1 h1
          obtain ⟨h6, h7⟩ := (ih ps').1 h2
          refine ⟨?_, by simp [coords, h4, h5, ← h7]⟩
          intro p' hp'
          rcases List.mem_cons.1 hp' with rfl | hp'
          · exact h3
          · exact h6 _ hp'
    · rintro ⟨h1, h2⟩
      cases ps with
      | nil => simp at h2
      | cons p ps =>
        simp only [List.map_cons, List.cons.injEq, coords, Prod.mk.injEq] at h2
        rw [(affineNew_iff C x y p).2 ⟨h1 p (by simp), h2.1.1, h2.1.2⟩]
        simp only
        rw [(ih ps).2 ⟨fun p' hp' => h1 p' (by simp [hp']), h2.2⟩]

theorem newAll_panic (C : SwCurve (ZMod q)) : ∀ (l : List (ZMod q × ZMod q)) (e : FieldsErr),
    newAll C l = .error e → e = .panic ∧ ∃ xy ∈ l, C.on xy.1 xy.2 = false := by
  intro l
  induction l with
  | nil => intro e h; cases h
  | cons xy l ih =>
    intro e h
    obtain ⟨x, y⟩ := xy
    simp only [newAll] at h
    cases h1 : affineNew C x y with
    | error e' =>
      rw [h1] at h
      simp only [Except.error.injEq] at h
      subst h
      obtain ⟨h2, h3⟩ := affineNew_panic C x y _ h1
      exact ⟨h2, (x, y), by simp, h3⟩
    | ok p =>
      rw [h1] at h
      cases h2 : newAll C l with
      | error e' =>
        rw [h2] at h
        simp only [Except.error.injEq] at h
        subst h
        obtain ⟨h3, xy, h4, h5⟩ := ih _ h2
        exact ⟨h3, xy, by simp [h4], h5⟩
      | ok ps => rw [h2] at h; cases h

theorem pairs_flat : ∀ ps : List (APoint (ZMod q)), pairs (ps.flatMap group1ToFields) = ps.map coords := by
  intro ps
  induction ps with
  | nil => rfl
  | cons p ps ih => simp [group1ToFields, pairs, coords, ih]

theorem flat_pairs : ∀ (n : ℕ) (l : List (ZMod q)) (ps : List (APoint (ZMod q))), l.length = 2 * n → ps.map coords = pairs l →
    ps.flatMap group1ToFields = l := by
  intro n
  induction n with
  | zero =>
    intro l ps hl h
    have : l = [] := List.eq_nil_of_length_eq_zero (by omega)
    subst this
    simp only [pairs, List.map_eq_nil_iff] at h
    subst h; rfl
  | succ n ih =>
    intro l ps hl h
    rcases l with _ | ⟨x, _ | ⟨y, l⟩⟩
    · simp at hl
    · simp at hl; omega
    · simp only [pairs] at h
      cases ps with
      | nil => simp at h
      | cons p ps =>
        simp only [List.map_cons, List.cons.injEq, coords, Prod.mk.injEq] at h
        simp only [List.flatMap_cons, group1ToFields, List.cons_append, List.nil_append, h.1.1, h.1.2]
        rw [ih l ps (by simp only [List.length_cons] at hl; omega) h.2]

theorem flat_length (ps : List (APoint (ZMod q))) : (ps.flatMap group1ToFields).length = 2 * ps.length := by
  induction ps with
  | nil => rfl
  | cons p ps ih => simp [group1ToFields, ih]; omega

theorem pairs_length : ∀ (n : ℕ) (l : List (ZMod q)), l.length = 2 * n → (pairs l).length = n := by
  intro n
  induction n with
  | zero => intro l hl; rw [List.eq_nil_of_length_eq_zero (l := l) (by omega)]; rfl
  | succ n ih =>
    intro l hl
    rcases l with _ | ⟨x, _ | ⟨y, l⟩⟩
    · simp at hl
    · simp at hl; omega
    · simp only [pairs, List.length_cons]
      rw [ih l (by simp only [List.length_cons] at hl; omega)]

/-- a list cut into the parts of a proof -/
theorem cut (l : List (ZMod q)) (h : l.length = 36) : ∃ A B E : List (ZMod q), ∃ a b c d e f : ZMod q,
    A.length = 10 ∧ B.length = 10 ∧ E.length = 10 ∧ l = A ++ B ++ [a, b, c, d, e, f] ++ E := by
  have h6 : ((l.drop 20).take 6).length = 6 := by simp; omega
  obtain ⟨a, b, c, d, e, f, h7⟩ : ∃ a b c d e f, (l.drop 20).take 6 = [a, b, c, d, e, f] := by
    generalize (l.drop 20).take 6 = m at h6
    match m, h6 with
    | [a, b, c, d, e, f], _ => exact ⟨a, b, c, d, e, f, rfl⟩
  refine ⟨l.take 10, (l.drop 10).take 10, l.drop 26, a, b, c, d, e, f, by simp; omega, by simp; omega, by simp; omega, ?_⟩
  rw [← h7]
  have e1 : l.drop 26 = (l.drop 20).drop 6 := by simp
  have e2 : l.drop 20 = (l.drop 10).drop 10 := by simp
  rw [e1, List.append_assoc, List.take_append_drop, e2, List.append_assoc, List.take_append_drop, List.take_append_drop]

theorem proofTryFrom_parts (C : SwCurve (ZMod q)) (r : ℕ) (A B E : List (ZMod q)) (a b c d e f : ZMod q)
    (hA : A.length = 10) (hB : B.length = 10) (hE : E.length = 10) :
    proofTryFrom C r (A ++ B ++ [a, b, c, d, e, f] ++ E) = (do
      let wires ← newAll C (pairs A)
      let quot ← newAll C (pairs B)
      let prodPerm ← affineNew C a b
      let opening ← affineNew C c d
      let shifted ← affineNew C e f
      let evals ← evalsTryFrom (E.map (fqToFr r))
      pure ⟨wires, prodPerm, quot, opening, shifted, evals, none⟩) := by
  have hl : (A ++ B ++ [a, b, c, d, e, f] ++ E).length = turboPlonkLen := by
    simp [hA, hB, hE, turboPlonkLen, gateWidth]
  have get : ∀ i, (A ++ B ++ [a, b, c, d, e, f] ++ E)[20 + i]? = ([a, b, c, d, e, f] ++ E)[i]? := by
    intro i
    rw [List.append_assoc, List.getElem?_append_right (by simp [hA, hB])]
    simp [hA, hB]
  have dr : (A ++ B ++ [a, b, c, d, e, f] ++ E).drop 26 = E := List.drop_left' (by simp [hA, hB])
  have tA : (A ++ B ++ [a, b, c, d, e, f] ++ E).take 10 = A := by
    rw [List.append_assoc, List.append_assoc, List.take_left' hA]
  have tB : ((A ++ B ++ [a, b, c, d, e, f] ++ E).drop 10).take 10 = B := by
    rw [List.append_assoc, List.append_assoc, List.drop_left' hA, List.take_left' hB]
  unfold proofTryFrom
  rw [if_pos hl]
  simp only [gateWidth, List.drop_zero, Nat.reduceAdd, Nat.reduceMul, tA, tB, dr, newAt]
  have g0 := get 0
  have g1 := get 1
  have g2 := get 2
  have g3 := get 3
  have g4 := get 4
  have g5 := get 5
  simp only [Nat.reduceAdd] at g0 g1 g2 g3 g4 g5
  rw [g0, g1, g2, g3, g4, g5]
  rfl

/-- when the conversion succeeds -/
theorem parts_iff (C : SwCurve (ZMod q)) (r : ℕ) (A B E : List (ZMod q)) (a b c d e f : ZMod q)
    (hA : A.length = 10) (hB : B.length = 10) (hE : E.length = 10) (P : Proof (ZMod r) (APoint (ZMod q))) :
    proofTryFrom C r (A ++ B ++ [a, b, c, d, e, f] ++ E) = .ok P ↔
      (∀ p ∈ commitments P, Finite C p) ∧ P.wires.map coords = pairs A ∧ P.quot.map coords = pairs B ∧
      coords P.prodPerm = (a, b) ∧ coords P.opening = (c, d) ∧ coords P.shifted = (e, f) ∧
      evalsTryFrom (E.map (fqToFr r)) = .ok P.evals ∧ P.lookup = none := by
  rw [proofTryFrom_parts C r A B E a b c d e f hA hB hE]
  constructor
  · intro h
    cases h1 : newAll C (pairs A) with
    | error x => rw [h1] at h; cases h
    | ok w =>
    cases h2 : newAll C (pairs B) with
    | error x => rw [h1, h2] at h; cases h
    | ok qu =>
    cases h3 : affineNew C a b with
    | error x => rw [h1, h2, h3] at h; cases h
    | ok p1 =>
    cases h4 : affineNew C c d with
    | error x => rw [h1, h2, h3, h4] at h; cases h
    | ok p2 =>
    cases h5 : affineNew C e f with
    | error x => rw [h1, h2, h3, h4, h5] at h; cases h
    | ok p3 =>
    cases h6 : evalsTryFrom (E.map (fqToFr r)) with
    | error x => rw [h1, h2, h3, h4, h5, h6] at h; cases h
    | ok ev =>
    rw [h1, h2, h3, h4, h5, h6] at h
    change Except.ok _ = Except.ok P at h
    simp only [Except.ok.injEq] at h
    subst h
    obtain ⟨w1, w2⟩ := (newAll_iff C _ _).1 h1
    obtain ⟨q1, q2⟩ := (newAll_iff C _ _).1 h2
    obtain ⟨a1, a2, a3⟩ := (affineNew_iff C _ _ _).1 h3
    obtain ⟨b1, b2, b3⟩ := (affineNew_iff C _ _ _).1 h4
    obtain ⟨c1, c2, c3⟩ := (affineNew_iff C _ _ _).1 h5
    refine ⟨?_, w2, q2, by simp [coords, a2, a3], by simp [coords, b2, b3], by simp [coords, c2, c3], rfl, rfl⟩
    intro p hp
    simp only [commitments, List.mem_append, List.mem_cons, List.not_mem_nil, or_false] at hp
    rcases hp with (hp | hp) | rfl | rfl | rfl
    · exact w1 p hp
    · exact q1 p hp
    · exact a1
    · exact b1
    · exact c1
  · rintro ⟨h0, h1, h2, h3, h4, h5, h6, h7⟩
    simp only [coords, Prod.mk.injEq] at h3 h4 h5
    have hc : ∀ p, p ∈ commitments P → Finite C p := h0
    rw [(newAll_iff C _ P.wires).2 ⟨fun p hp => hc p (by simp [commitments, hp]), h1⟩,
      (newAll_iff C _ P.quot).2 ⟨fun p hp => hc p (by simp [commitments, hp]), h2⟩,
      (affineNew_iff C _ _ P.prodPerm).2 ⟨hc _ (by simp [commitments]), h3.1, h3.2⟩,
      (affineNew_iff C _ _ P.opening).2 ⟨hc _ (by simp [commitments]), h4.1, h4.2⟩,
      (affineNew_iff C _ _ P.shifted).2 ⟨hc _ (by simp [commitments]), h5.1, h5.2⟩, h6]
    obtain ⟨pw, pp, pq, po, ps, pe, pl⟩ := P
    simp only at h7
    subst h7
    rfl

/-- the fields of a TurboPlonk proof -/
theorem toFields_eq (P : Proof (ZMod r) (APoint (ZMod q))) (hP : TurboShape P) :
    proofToFields P = .ok (P.wires.flatMap group1ToFields ++ P.quot.flatMap group1ToFields ++
      [P.prodPerm.x, P.prodPerm.y, P.opening.x, P.opening.y, P.shifted.x, P.shifted.y] ++
      (evalsToVec P.evals).map (frToFq q)) := by
  unfold proofToFields
  rw [hP.lookup]
  simp [group1ToFields]

theorem evalsToVec_length (P : Proof (ZMod r) (APoint (ZMod q))) (hP : TurboShape P) :
    (evalsToVec P.evals).length = 10 := by
  simp [evalsToVec, hP.evals, hP.sigmas]

/-- **C87, there and back**: a TurboPlonk proof with finite commitments is converted to 36 base field elements, and these are
converted to the same proof -/
theorem C87_round_trip [NeZero r] [NeZero q] (hrq : r ≤ q) (C : SwCurve (ZMod q)) (P : Proof (ZMod r) (APoint (ZMod q)))
    (hP : TurboShape P) (hf : ∀ p ∈ commitments P, Finite C p) :
    ∃ l, proofToFields P = .ok l ∧ l.length = 36 ∧ proofTryFrom C r l = .ok P := by
  refine ⟨_, toFields_eq P hP, ?_, ?_⟩
  · simp only [List.length_append, List.length_map, flat_length, hP.wires, hP.quot, evalsToVec_length P hP]
    simp
  · rw [parts_iff C r _ _ _ _ _ _ _ _ _ (by rw [flat_length, hP.wires]) (by rw [flat_length, hP.quot])
      (by rw [List.length_map, evalsToVec_length P hP])]
    refine ⟨hf, (pairs_flat _).symm, (pairs_flat _).symm, rfl, rfl, rfl, ?_, hP.lookup⟩
    rw [List.map_map, show (fqToFr r ∘ frToFq q : ZMod r → ZMod r) = id from funext fun x => (C45_embedding_preserves r q hrq x).2,
      List.map_id]
    exact C87_evals_round_trip _ 5 (.inl rfl) hP.evals hP.sigmas

/-- **C87, back and there**: every accepted list gives a TurboPlonk proof with finite commitments in the subgroup; converting it back
gives the list with the last ten elements reduced modulo the order of the scalar field -/
theorem C87_accepted [NeZero r] [NeZero q] (hrq : r ≤ q) (C : SwCurve (ZMod q)) (l : List (ZMod q))
    (P : Proof (ZMod r) (APoint (ZMod q))) (h : proofTryFrom C r l = .ok P) :
    TurboShape P ∧ (∀ p ∈ commitments P, Finite C p) ∧ l.length = 36 ∧
    proofToFields P = .ok (l.take 26 ++ (l.drop 26).map fun x => ((x.val % r : ℕ) : ZMod q)) := by
  have hl : l.length = 36 := by
    by_contra hn
    unfold proofTryFrom at h
    rw [if_neg (by simpa [turboPlonkLen, gateWidth] using hn)] at h
    cases h
  obtain ⟨A, B, E, a, b, c, d, e, f, hA, hB, hE, rfl⟩ := cut l hl
  obtain ⟨h0, h1, h2, h3, h4, h5, h6, h7⟩ := (parts_iff C r A B E a b c d e f hA hB hE P).1 h
  obtain ⟨h8, h9⟩ := (C87_evals_back _ _).1 h6
  have hlen : (evalsToVec P.evals).length = 10 := by rw [h8, List.length_map, hE]
  have hsh : TurboShape P := by
    refine ⟨?_, ?_, ?_, ?_, h7⟩
    · rw [← List.length_map (f := coords), h1, pairs_length 5 A hA]
    · rw [← List.length_map (f := coords), h2, pairs_length 5 B hB]
    · rcases h9 with h9 | h9
      · exact h9.1
      · simp [evalsToVec, h9.1, h9.2] at hlen
    · rcases h9 with h9 | h9
      · exact h9.2
      · simp [evalsToVec, h9.1, h9.2] at hlen
  refine ⟨hsh, h0, hl, ?_⟩
  rw [toFields_eq P hsh, flat_pairs 5 A _ hA h1, flat_pairs 5 B _ hB h2, h8, List.map_map]
  simp only [coords, Prod.mk.injEq] at h3 h4 h5
  rw [h3.1, h3.2, h4.1, h4.2, h5.1, h5.2]
  have t26 : (A ++ B ++ [a, b, c, d, e, f] ++ E).take 26 = A ++ B ++ [a, b, c, d, e, f] := List.take_left' (by simp [hA, hB])
  have d26 : (A ++ B ++ [a, b, c, d, e, f] ++ E).drop 26 = E := List.drop_left' (by simp [hA, hB])
  rw [t26, d26]
  congr 3
  funext x
  simp only [Function.comp]
  have h10 := (C45_embedding_preserves r q hrq (fqToFr r x)).1
  rw [C45_reduction] at h10
  rw [← h10, ZMod.natCast_zmod_val]

/-- **C87, which lists are accepted**: other lengths are an error; lists of 36 elements are accepted if all thirteen pairs are points,
and make the conversion panic otherwise -/
theorem C87_outcome (C : SwCurve (ZMod q)) (l : List (ZMod q)) :
    (l.length ≠ 36 → proofTryFrom C r l = .error .parameter) ∧
    (l.length = 36 → (∀ xy ∈ pairs (l.take 26), C.on xy.1 xy.2 = true) → ∃ P, proofTryFrom C r l = .ok P) ∧
    (l.length = 36 → (∃ xy ∈ pairs (l.take 26), C.on xy.1 xy.2 = false) → proofTryFrom C r l = .error .panic) := by
  have pairs_append : ∀ (n : ℕ) (x y : List (ZMod q)), x.length = 2 * n → pairs (x ++ y) = pairs x ++ pairs y := by
    intro n
    induction n with
    | zero => intro x y hx; rw [List.eq_nil_of_length_eq_zero (l := x) (by omega)]; rfl
    | succ n ih =>
      intro x y hx
      rcases x with _ | ⟨u, _ | ⟨v, x⟩⟩
      · simp at hx
      · simp at hx; omega
      · simp only [List.cons_append, pairs]
        rw [ih x y (by simp only [List.length_cons] at hx; omega)]
  refine ⟨fun h => ?_, fun hl h => ?_, fun hl h => ?_⟩
  · unfold proofTryFrom
    rw [if_neg (by simpa [turboPlonkLen, gateWidth] using h)]
  all_goals
    obtain ⟨A, B, E, a, b, c, d, e, f, hA, hB, hE, rfl⟩ := cut l hl
    have t26 : (A ++ B ++ [a, b, c, d, e, f] ++ E).take 26 = A ++ B ++ [a, b, c, d, e, f] := List.take_left' (by simp [hA, hB])
    have hp : pairs (A ++ B ++ [a, b, c, d, e, f]) = pairs A ++ pairs B ++ [(a, b), (c, d), (e, f)] := by
      rw [pairs_append 10 _ _ (by simp [hA, hB]), pairs_append 5 _ _ hA]
      rfl
    rw [t26, hp] at h
    rw [proofTryFrom_parts C r A B E a b c d e f hA hB hE]
    obtain ⟨ev, hev⟩ : ∃ ev, evalsTryFrom (E.map (fqToFr r)) = .ok ev := by
      unfold evalsTryFrom
      rw [List.length_map, hE, if_pos (by decide), List.getElem?_eq_getElem (by simp [hE])]
      exact ⟨_, rfl⟩
  · have pt : ∀ x y, C.on x y = true → affineNew C x y = .ok ⟨x, y, false⟩ := by
      intro x y hxy; unfold affineNew; rw [if_pos hxy]
    have pts : ∀ L : List (ZMod q × ZMod q), (∀ xy ∈ L, C.on xy.1 xy.2 = true) →
        newAll C L = .ok (L.map fun xy => ⟨xy.1, xy.2, false⟩) := by
      intro L hL
      rw [newAll_iff]
      refine ⟨?_, by rw [List.map_map]; exact (List.map_congr_left fun _ _ => rfl).trans (List.map_id _)⟩
      intro p hp
      obtain ⟨xy, h1, rfl⟩ := List.mem_map.1 hp
      exact ⟨rfl, hL xy h1⟩
    rw [pts _ fun xy hxy => h xy (by simp [hxy]), pts _ fun xy hxy => h xy (by simp [hxy]), pt a b (h (a, b) (by simp)),
      pt c d (h (c, d) (by simp)), pt e f (h (e, f) (by simp)), hev]
    exact ⟨_, rfl⟩
  · cases h1 : newAll C (pairs A) with
    | error x => rw [(newAll_panic C _ _ h1).1]; rfl
    | ok w =>
    cases h2 : newAll C (pairs B) with
    | error x => rw [(newAll_panic C _ _ h2).1]; rfl
    | ok qu =>
    cases h3 : affineNew C a b with
    | error x => rw [(affineNew_panic C _ _ _ h3).1]; rfl
    | ok p1 =>
    cases h4 : affineNew C c d with
    | error x => rw [(affineNew_panic C _ _ _ h4).1]; rfl
    | ok p2 =>
    cases h5 : affineNew C e f with
    | error x => rw [(affineNew_panic C _ _ _ h5).1]; rfl
    | ok p3 =>
    exfalso
    obtain ⟨xy, hm, hx⟩ := h
    have mem : ∀ L w, newAll C L = .ok w → xy ∈ L → False := by
      intro L w hw hxy
      obtain ⟨g1, g2⟩ := (newAll_iff C _ _).1 hw
      rw [← g2] at hxy
      obtain ⟨p, hp, rfl⟩ := List.mem_map.1 hxy
      have := (g1 p hp).2
      simp only [coords] at hx
      rw [this] at hx
      cases hx
    have one : ∀ x y p, affineNew C x y = .ok p → xy = (x, y) → False := by
      rintro x y p hp rfl
      obtain ⟨g1, g2, g3⟩ := (affineNew_iff C _ _ _).1 hp
      have := g1.2
      rw [g2, g3] at this
      simp only at hx
      rw [this] at hx
      cases hx
    simp only [List.mem_append, List.mem_cons, List.not_mem_nil, or_false] at hm
    rcases hm with (hm | hm) | hm | hm | hm
    · exact mem _ _ h1 hm
    · exact mem _ _ h2 hm
    · exact one _ _ _ h3 hm
    · exact one _ _ _ h4 hm
    · exact one _ _ _ h5 hm

/-- **C87 is false with the identity**: on a curve with `b ≠ 0` every TurboPlonk proof in which some commitment is the identity is
converted to a list on which the conversion back panics -/
theorem C87_identity_counterexample (C : SwCurve (ZMod q)) (hb : C.b ≠ 0)
    (P : Proof (ZMod r) (APoint (ZMod q))) (hP : TurboShape P) (hid : APoint.identity ∈ commitments P) :
    ∃ l, proofToFields P = .ok l ∧ proofTryFrom C r l = .error .panic := by
  refine ⟨_, toFields_eq P hP, ?_⟩
  have h0 : C.on 0 0 = false := by
    unfold SwCurve.on
    rw [Bool.and_eq_false_iff]
    left
    simpa using fun h => hb h.symm
  have key : ∀ l : List (ZMod q), l.length = 36 → ((0 : ZMod q), (0 : ZMod q)) ∈ pairs (l.take 26) →
      proofTryFrom C r l = .error .panic := fun l hl hm => (C87_outcome C l).2.2 hl ⟨_, hm, h0⟩
  apply key
  · simp only [List.length_append, List.length_map, flat_length, hP.wires, hP.quot, evalsToVec_length P hP]
    simp
  · rw [List.take_left' (by
      simp only [List.length_append, flat_length, hP.wires, hP.quot, List.length_cons, List.length_nil])]
    have : (P.wires.flatMap group1ToFields ++ P.quot.flatMap group1ToFields ++
        [P.prodPerm.x, P.prodPerm.y, P.opening.x, P.opening.y, P.shifted.x, P.shifted.y]) =
        (commitments P).flatMap group1ToFields := by simp [commitments, group1ToFields]
    rw [this, pairs_flat]
    exact List.mem_map.2 ⟨_, hid, rfl⟩

/-- **C87, several lists for one proof**: adding the order of the scalar field to one of the last ten elements of an accepted list
gives another accepted list, with the same proof -/
theorem C87_malleable_counterexample [NeZero r] [NeZero q] (C : SwCurve (ZMod q)) (l : List (ZMod q))
    (P : Proof (ZMod r) (APoint (ZMod q))) (h : proofTryFrom C r l = .ok P) (j : ℕ) (hj : 26 ≤ j) (x : ZMod q) (hx : l[j]? = some x)
    (hlt : x.val + r < q) :
    l.set j ((x.val + r : ℕ) : ZMod q) ≠ l ∧ proofTryFrom C r (l.set j ((x.val + r : ℕ) : ZMod q)) = .ok P := by
  obtain ⟨hjl, hxe⟩ := List.getElem?_eq_some_iff.1 hx
  have hl : l.length = 36 := by
    by_contra hn
    unfold proofTryFrom at h
    rw [if_neg (by simpa [turboPlonkLen, gateWidth] using hn)] at h
    cases h
  constructor
  · intro he
    have h1 : (l.set j ((x.val + r : ℕ) : ZMod q))[j]? = some ((x.val + r : ℕ) : ZMod q) := List.getElem?_set_self hjl
    rw [he, hx] at h1
    simp only [Option.some.injEq] at h1
    have h2 := congrArg ZMod.val h1
    rw [ZMod.val_natCast_of_lt hlt] at h2
    have := NeZero.pos r
    omega
  · obtain ⟨A, B, E, a, b, c, d, e, f, hA, hB, hE, rfl⟩ := cut l hl
    have hAB : (A ++ B ++ [a, b, c, d, e, f]).length = 26 := by simp [hA, hB]
    rw [List.set_append_right _ _ (by omega), hAB]
    rw [List.getElem?_append_right (by omega), hAB] at hx
    rw [proofTryFrom_parts C r A B _ a b c d e f hA hB (by rw [List.length_set, hE])]
    rw [proofTryFrom_parts C r A B E a b c d e f hA hB hE] at h
    have : (E.set (j - 26) ((x.val + r : ℕ) : ZMod q)).map (fqToFr r) = E.map (fqToFr r) := by
      obtain ⟨hj2, hxe2⟩ := List.getElem?_eq_some_iff.1 hx
      rw [List.map_set]
      have : fqToFr r ((x.val + r : ℕ) : ZMod q) = fqToFr r x := by
        apply ZMod.val_injective
        rw [C45_reduction, C45_reduction, ZMod.val_natCast_of_lt hlt, Nat.add_mod_right]
      rw [this]
      apply List.ext_getElem?
      intro i
      rw [List.getElem?_set]
      split_ifs with h1 h2
      · subst h1
        rw [List.getElem?_map, hx]; rfl
      · subst h1
        rw [List.length_map] at h2
        omega
      · rfl
    rw [this]
    exact h

/-- **C87, shapes**: proofs of other shapes may have the fields of a TurboPlonk proof: moving the last wire commitment to the front of
the quotient commitments changes the proof and not its fields -/
theorem C87_shape_counterexample (ws qs : List (APoint (ZMod q))) (w pp o s : APoint (ZMod q)) (e : Evals (ZMod r)) :
    proofToFields (⟨ws ++ [w], pp, qs, o, s, e, none⟩ : Proof (ZMod r) (APoint (ZMod q))) =
      proofToFields ⟨ws, pp, w :: qs, o, s, e, none⟩ ∧
    (⟨ws ++ [w], pp, qs, o, s, e, none⟩ : Proof (ZMod r) (APoint (ZMod q))) ≠ ⟨ws, pp, w :: qs, o, s, e, none⟩ := by
  constructor
  · simp [proofToFields]
  · intro h
    simp only [Proof.mk.injEq, true_and] at h
    have := congrArg List.length h.2.1
    simp at this

/-- **C87**: proofs with lookups panic -/
theorem C87_lookup (P : Proof (ZMod r) (APoint (ZMod q))) (h : P.lookup.isSome) : proofToFields P = .error .panic := by
  unfold proofToFields
  rw [if_pos h]

/-! ## Keys -/

/-- points of the second group: finite or the identity; `(0, 0)` is not a point -/
def Point2 (p : APoint (ZMod q × ZMod q)) : Prop := p = APoint.identity ∨ p.inf = false ∧ (p.x, p.y) ≠ (0, 0)

/-- a usable TurboPlonk key: points, sizes below the modulus -/
structure KeyOk (C : SwCurve (ZMod q)) (vk : VKey (ZMod r) (APoint (ZMod q)) (APoint (ZMod q × ZMod q))) : Prop where
  dom : vk.domSize < q
  inputs : vk.numInputs < q
  sigmas : ∀ p ∈ vk.sigmas, Point C p
  selectors : ∀ p ∈ vk.selectors, Point C p
  g : Point C vk.openKey.g
  h : Point2 vk.openKey.h
  betaH : Point2 vk.openKey.betaH
  lookup : vk.lookup = none

theorem point_ext (C : SwCurve (ZMod q)) (hb : C.b ≠ 0) (p p' : APoint (ZMod q)) (h : Point C p) (h' : Point C p')
    (hx : p.x = p'.x) (hy : p.y = p'.y) : p = p' := by
  have h0 : C.on 0 0 = false := by
    unfold SwCurve.on
    rw [Bool.and_eq_false_iff]
    left
    simpa using fun h => hb h.symm
  obtain ⟨x, y, i⟩ := p
  obtain ⟨x', y', i'⟩ := p'
  simp only at hx hy
  subst hx hy
  rcases h with ⟨h1, h2⟩ | h <;> rcases h' with ⟨h1', h2'⟩ | h'
  · simp only at h1 h1'; rw [h1, h1']
  · simp only [APoint.identity, APoint.mk.injEq] at h'
    simp only at h2
    rw [h'.1, h'.2.1, h0] at h2; cases h2
  · simp only [APoint.identity, APoint.mk.injEq] at h
    simp only at h2'
    rw [h.1, h.2.1, h0] at h2'; cases h2'
  · rw [h, h']

theorem points_ext (C : SwCurve (ZMod q)) (hb : C.b ≠ 0) : ∀ L L' : List (APoint (ZMod q)), (∀ p ∈ L, Point C p) →
    (∀ p ∈ L', Point C p) → L.flatMap group1ToFields = L'.flatMap group1ToFields → L = L' := by
  intro L
  induction L with
  | nil =>
    intro L' _ _ h
    cases L' with
    | nil => rfl
    | cons p L' => simp [group1ToFields] at h
  | cons p L ih =>
    intro L' h1 h2 h
    cases L' with
    | nil => simp [group1ToFields] at h
    | cons p' L' =>
      simp only [List.flatMap_cons, group1ToFields, List.cons_append, List.nil_append, List.cons.injEq] at h
      rw [point_ext C hb p p' (h1 p (by simp)) (h2 p' (by simp)) h.1 h.2.1,
        ih L' (fun x hx => h1 x (by simp [hx])) (fun x hx => h2 x (by simp [hx])) h.2.2]

theorem point2_ext (p p' : APoint (ZMod q × ZMod q)) (h : Point2 p) (h' : Point2 p')
    (hf : group2ToFields p = group2ToFields p') : p = p' := by
  obtain ⟨⟨x1, x2⟩, ⟨y1, y2⟩, i⟩ := p
  obtain ⟨⟨x1', x2'⟩, ⟨y1', y2'⟩, i'⟩ := p'
  simp only [group2ToFields, List.cons.injEq, and_true] at hf
  obtain ⟨rfl, rfl, rfl, rfl⟩ := hf
  rcases h with h | ⟨h1, h2⟩ <;> rcases h' with h' | ⟨h1', h2'⟩
  · rw [h, h']
  · exfalso
    simp only [APoint.identity, APoint.mk.injEq] at h
    simp only [ne_eq] at h2'
    exact h2' (by rw [h.1, h.2.1])
  · exfalso
    simp only [APoint.identity, APoint.mk.injEq] at h'
    simp only [ne_eq] at h2
    exact h2 (by rw [h'.1, h'.2.1])
  · simp only at h1 h1'; rw [h1, h1']

/-- **C87, keys**: two keys with equally many commitments and coset representatives that give the same fields agree in everything the
verifier uses except the flag for merged keys -/
theorem C87_keys [NeZero r] [NeZero q] (hrq : r ≤ q) (C : SwCurve (ZMod q)) (hb : C.b ≠ 0)
    (vk vk' : VKey (ZMod r) (APoint (ZMod q)) (APoint (ZMod q × ZMod q))) (hk : KeyOk C vk) (hk' : KeyOk C vk')
    (h1 : vk.sigmas.length = vk'.sigmas.length) (h2 : vk.selectors.length = vk'.selectors.length) (h3 : vk.k.length = vk'.k.length)
    (h : vkToFields vk = vkToFields vk') :
    vk.domSize = vk'.domSize ∧ vk.numInputs = vk'.numInputs ∧ vk.sigmas = vk'.sigmas ∧ vk.selectors = vk'.selectors ∧
    vk.k = vk'.k ∧ vk.openKey.g = vk'.openKey.g ∧ vk.openKey.h = vk'.openKey.h ∧ vk.openKey.betaH = vk'.openKey.betaH := by
  unfold vkToFields at h
  rw [hk.lookup, hk'.lookup] at h
  simp only [Option.isSome_none, Bool.false_eq_true, if_false, Except.ok.injEq] at h
  obtain ⟨h, e8⟩ := List.append_inj h (by
    simp only [List.length_append, List.length_map, flat_length, h1, h2, h3, List.length_cons, List.length_nil, group1ToFields, group2ToFields])
  obtain ⟨h, e7⟩ := List.append_inj h (by
    simp only [List.length_append, List.length_map, flat_length, h1, h2, h3, List.length_cons, List.length_nil, group1ToFields])
  obtain ⟨h, e6⟩ := List.append_inj h (by
    simp only [List.length_append, List.length_map, flat_length, h1, h2, h3, List.length_cons, List.length_nil])
  obtain ⟨h, e5⟩ := List.append_inj h (by
    simp only [List.length_append, flat_length, h1, h2, List.length_cons, List.length_nil])
  obtain ⟨h, e4⟩ := List.append_inj h (by
    simp only [List.length_append, flat_length, h1, List.length_cons, List.length_nil])
  obtain ⟨h, e3⟩ := List.append_inj h (by simp only [List.length_append, List.length_cons, List.length_nil])
  simp only [List.cons_append, List.nil_append, List.cons.injEq, and_true] at h
  have nat : ∀ n n' : ℕ, n < q → n' < q → (n : ZMod q) = (n' : ZMod q) → n = n' := by
    intro n n' hn hn' he
    have := congrArg ZMod.val he
    rwa [ZMod.val_natCast_of_lt hn, ZMod.val_natCast_of_lt hn'] at this
  simp only [group1ToFields, List.cons.injEq, and_true] at e6
  refine ⟨nat _ _ hk.dom hk'.dom h.1, nat _ _ hk.inputs hk'.inputs h.2, points_ext C hb _ _ hk.sigmas hk'.sigmas e3,
    points_ext C hb _ _ hk.selectors hk'.selectors e4, ?_, point_ext C hb _ _ hk.g hk'.g e6.1 e6.2, point2_ext _ _ hk.h hk'.h e7,
    point2_ext _ _ hk.betaH hk'.betaH e8⟩
  refine List.map_injective_iff.2 ?_ e5
  intro x y hxy
  rw [← (C45_embedding_preserves r q hrq x).2, hxy, (C45_embedding_preserves r q hrq y).2]

/-- **C87, keys**: the flag for merged keys does not enter, so a merged key and an unmerged one may have the same fields -/
theorem C87_merged_counterexample (vk : VKey (ZMod r) (APoint (ZMod q)) (APoint (ZMod q × ZMod q))) (b : Bool) :
    vkToFields { vk with merged := b } = vkToFields vk := rfl

end

/-! ## Examples -/

section
instance : Fact (Nat.Prime 19) := ⟨by norm_num⟩

/-- `y² = x³ + 2` over `ZMod 19`; the point `(4, 3)` -/
def toy : SwCurve (ZMod 19) := ⟨0, 2, fun _ _ => true⟩

def toyP : APoint (ZMod 19) := ⟨4, 3, false⟩

example : ∃ P : Proof (ZMod 13) (APoint (ZMod 19)), TurboShape P ∧ (∀ p ∈ commitments P, Finite toy p) ∧
    ∃ l, proofToFields P = .ok l ∧ proofTryFrom toy 13 l = .ok P := by
  refine ⟨⟨[toyP, toyP, toyP, toyP, toyP], toyP, [toyP, toyP, toyP, toyP, toyP], toyP, toyP,
    ⟨[1, 2, 3, 4, 5], [6, 7, 8, 9], 10⟩, none⟩, ⟨rfl, rfl, rfl, rfl, rfl⟩, ?_, ?_⟩
  · simp only [commitments]
    decide
  · obtain ⟨l, h1, -, h2⟩ := C87_round_trip (by norm_num : 13 ≤ 19) toy
      ⟨[toyP, toyP, toyP, toyP, toyP], toyP, [toyP, toyP, toyP, toyP, toyP], toyP, toyP, ⟨[1, 2, 3, 4, 5], [6, 7, 8, 9], 10⟩, none⟩
      ⟨rfl, rfl, rfl, rfl, rfl⟩ (by simp only [commitments]; decide)
    exact ⟨l, h1, h2⟩

/-- a proof with an identity commitment is converted and not accepted back -/
example : ∃ l, proofToFields (⟨[toyP, toyP, toyP, toyP, toyP], toyP, [toyP, toyP, toyP, toyP, .identity], toyP, toyP,
      ⟨[1, 2, 3, 4, 5], [6, 7, 8, 9], 10⟩, none⟩ : Proof (ZMod 13) (APoint (ZMod 19))) = .ok l ∧
    proofTryFrom toy 13 l = .error .panic :=
  C87_identity_counterexample toy (by decide) _ ⟨rfl, rfl, rfl, rfl, rfl⟩ (by simp [commitments])

/-- two lists for one proof -/
example : ∃ l l' : List (ZMod 19), ∃ P : Proof (ZMod 13) (APoint (ZMod 19)), l ≠ l' ∧ proofTryFrom toy 13 l = .ok P ∧
    proofTryFrom toy 13 l' = .ok P := by
  obtain ⟨P, hP⟩ := (C87_outcome (r := 13) toy ((List.replicate 13 [4, 3]).flatten ++ List.replicate 10 2)).2.1 (by decide +kernel)
    (by decide +kernel)
  obtain ⟨h1, h2⟩ := C87_malleable_counterexample toy _ P hP 30 (by norm_num) 2 (by decide +kernel) (by decide)
  exact ⟨_, _, P, h1.symm, hP, h2⟩

/-- a key with an identity among its commitments -/
example : KeyOk (r := 13) toy ⟨16, 1, [toyP, toyP], [toyP, .identity], [1, 3], ⟨toyP, ⟨(1, 2), (3, 4), false⟩, ⟨(5, 6), (7, 8), false⟩, [], []⟩,
    false, none⟩ where
  dom := by decide
  inputs := by decide
  sigmas := by simp [Point, show Finite toy toyP by decide]
  selectors := by simp [Point, show Finite toy toyP by decide]
  g := .inl (by decide)
  h := .inr ⟨rfl, by decide⟩
  betaH := .inr ⟨rfl, by decide⟩
  lookup := rfl

end

end Verif.Props.ProofFields
