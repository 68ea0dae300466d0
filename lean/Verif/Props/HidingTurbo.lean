import Verif.Plonk.HidingTurbo
import Verif.Props.Hiding
import Mathlib.Data.Set.Card
import Mathlib.Data.Finite.Prod
import Mathlib.Data.Fintype.BigOperators

/-!
# C78: TurboPlonk proofs hide the witness

Without lookups the randomness of the prover hides the witness: for every set of proofs, the number of choices of the
randomness that lead to a proof in the set is the same for two witnesses of the same circuit, up to the choices for
which the prover fails and those for which the challenges are degenerate.
-/

set_option linter.unusedSectionVars false

namespace Verif.Props.Hiding

open Verif.Circuit Verif.Pcs Verif.Plonk Polynomial
open Verif.Props.Finalize Verif.Props.Verifier Verif.Props.EndToEnd Verif.Props.Prover
open Verif.Props.CopyConstraints (SlotVar linked_of final_val)

variable {p : ℕ} [Fact p.Prime] {S : ℕ} {root : ZMod p} {rnd : List (ZMod p)}
variable {G G2 : Type} [AddCommGroup G] [Module (ZMod p) G] [DecidableEq G]
  [AddCommGroup G2] [Module (ZMod p) G2] [DecidableEq G2]

/-! ## Specification -/

/-- the outcome of the prover for the randomness `r` -/
def outcome (S : ℕ) (root gen : ZMod p) (oracle : List (Call (ZMod p) G G2) → ZMod p) (extra : Option (List ℕ))
    {len : ℕ} (Y : Fin len → Case p G G2) (r : TurboRand p len) : Except PErr (BProof (ZMod p) G) :=
  batchProve gen (newDomain S root) oracle extra r.masks r.quot ((List.ofFn Y).map (·.final.arith))
    ((List.ofFn Y).map (·.key))

/-- challenges for which a proof can tell something of the witness: the point of evaluation is in the domain, or it or
its shift is the secret of the structured reference string, or the permutation product of a circuit is undefined -/
def Degenerate (x : ZMod p) (d : Domain (ZMod p)) {len : ℕ} (f : Fin len → FCirc p) (ch : Chal (ZMod p)) : Prop :=
  ch.ζ ^ d.size = 1 ∨ ch.ζ = x ∨ ch.ζ * d.gen = x ∨ ∃ i, ¬ PermDefined (f i) ch.β ch.γ

/-! ## Counting -/

instance (len : ℕ) : Finite (TurboRand p len) := by
  have : NeZero p := ⟨(Fact.out : p.Prime).ne_zero⟩
  have : Finite (ZMod p) := Finite.of_fintype _
  infer_instance

theorem outcome_eq (hroot : IsPrimitiveRoot root (2 ^ S)) {x : ZMod p} {g : G} {h : G2} {m : ℕ} {d : Domain (ZMod p)}
    {len : ℕ} {Y : Fin (len + 1) → Case p G G2} (H : TurboFam S root rnd x g h m d Y) (gen : ZMod p)
    (oracle : List (Call (ZMod p) G G2) → ZMod p) (extra : Option (List ℕ)) (r : TurboRand p (len + 1)) :
    outcome S root gen oracle extra Y r = proveRunsWith (splitQuot d.size 5 r.quot) gen (newDomain S root) oracle extra
      d.size 5 (Y 0).key.commitKey (startRuns (List.ofFn Y) r.masks) := by
  have e : List.ofFn Y = Y 0 :: List.ofFn (fun i : Fin len => Y i.succ) := List.ofFn_succ
  unfold outcome
  rw [e]
  refine batchProve_eq (rnd := rnd) (x := x) (g := g) (h := h) (m := m) hroot (fun y hy => ?_) (fun y hy => ?_) gen oracle extra r.masks r.quot
  · rw [← e] at hy
    obtain ⟨i, rfl⟩ := List.mem_ofFn.1 hy
    exact H.honest i
  · rw [← e] at hy
    obtain ⟨i, rfl⟩ := List.mem_ofFn.1 hy
    exact ⟨by rw [H.dom i], (H.numWires i).2⟩

/-- a family with the keys of a TurboPlonk family -/
theorem turboFam_of_key (hroot : IsPrimitiveRoot root (2 ^ S)) {x : ZMod p} {g : G} {h : G2} {m : ℕ}
    {d : Domain (ZMod p)} {len : ℕ} {Y Y' : Fin len → Case p G G2} (H : TurboFam S root rnd x g h m d Y)
    (H' : ∀ i, Honest S root rnd x g h m (Y' i).circ (Y' i).final (Y' i).key (Y' i).inputs)
    (hkey : ∀ i, (Y i).key = (Y' i).key) : TurboFam S root rnd x g h m d Y' := by
  refine ⟨H', fun i => ?_, fun i => ?_⟩
  · have h1 := (honest_checks hroot (H.honest i)).2.2.2
    have h2 := (honest_checks hroot (H' i)).2.2.2
    rw [← hkey i, ← h1] at h2
    have h3 : (Y' i).final.circ.ultra.isSome = (Y i).final.circ.ultra.isSome := h2
    rw [(H.numWires i).1] at h3
    have h4 := final_ultra (H' i).built (H' i).final
    rw [← h4]
    cases h5 : (Y' i).final.circ.ultra with
    | none => rfl
    | some k => rw [h5] at h3; cases h3
  · rw [← key_dom hroot (H.honest i) (H' i) (hkey i), H.dom i]

/-- C78: for TurboPlonk circuits with two witnesses, and every set of proofs, the number of choices of the randomness
of the prover that lead from the one witness to a proof in the set is at most that for the other witness, plus
the number of choices for which the splitting of the quotient fails, plus the number of choices that lead to degenerate
challenges.  The structured reference string has the secret `x`. -/
theorem C78_turbo_hiding (hroot : IsPrimitiveRoot root (2 ^ S)) {x : ZMod p} {g : G} {h : G2} {m len : ℕ}
    {Y Y' : Fin (len + 1) → Case p G G2}
    (H : ∀ i, Honest S root rnd x g h m (Y i).circ (Y i).final (Y i).key (Y i).inputs)
    (H' : ∀ i, Honest S root rnd x g h m (Y' i).circ (Y' i).final (Y' i).key (Y' i).inputs)
    (hkey : ∀ i, (Y i).key = (Y' i).key) (hin : ∀ i, (Y i).inputs = (Y' i).inputs)
    (hturbo : ∀ i, (Y i).circ.ultra = none) {d : Domain (ZMod p)} (hdom : ∀ i, (Y i).final.dom = d)
    {gen : ZMod p} (hgen : gen ≠ 0) {quot : Domain (ZMod p)}
    (hq : newDomain S root (d.size * domainSizeRatio d.size 5) = some quot)
    (hz : ∀ i < quot.size / d.size, (gen * quot.gen ^ i) ^ d.size ≠ 1)
    (hx0 : x ≠ 0) (hx : x ^ d.size ≠ 1)
    (oracle : List (Call (ZMod p) G G2) → ZMod p) (extra : Option (List ℕ)) (A : Set (BProof (ZMod p) G)) :
    {r | ∃ π ∈ A, outcome S root gen oracle extra Y r = .ok π}.ncard ≤
      {r | ∃ π ∈ A, outcome S root gen oracle extra Y' r = .ok π}.ncard +
      {r | outcome S root gen oracle extra Y' r = .error .wrongQuotientDegree ∨
        outcome S root gen oracle extra Y' r = .error (.snark .panic)}.ncard +
      {r | ∃ π, outcome S root gen oracle extra Y r = .ok π ∧ Degenerate x d (fun i => (Y' i).final)
        (challenges oracle extra (List.ofFn (fun i => (Y i).key.vk)) (List.ofFn (fun i => (Y i).inputs)) π)}.ncard := by
  have hY : TurboFam S root rnd x g h m d Y := ⟨H, hturbo, hdom⟩
  have hY' := turboFam_of_key hroot hY H' hkey
  obtain ⟨hd, hn1⟩ := hY.size 0
  have hgood := (good_of_newDomain hroot hd).1
  have hn := size_pos d
  have hω : d.gen ≠ 1 := by
    intro h1
    have := hgood.prim.pow_ne_one_of_pos_of_lt (l := 1) (by omega) (by omega)
    rw [pow_one] at this
    exact this h1
  have hck := (H 0).keys hroot
  rw [hdom 0] at hck
  set vks := List.ofFn (fun i => (Y i).key.vk)
  set pis := List.ofFn (fun i => (Y i).inputs)
  -- the proofs of the prover are proofs of the ideal prover
  have hideal : ∀ (r : TurboRand p (len + 1)) (π : BProof (ZMod p) G), outcome S root gen oracle extra Y r = .ok π →
      idealProve gen (newDomain S root) oracle extra d.size (Y 0).key.commitKey Y r = .ok π := by
    intro r π hπ
    rw [outcome_eq hroot hY] at hπ
    exact proveRunsWith_congr (fun q ts h => idealSplit_of_ok h) hπ
  have hback : ∀ (r : TurboRand p (len + 1)) (π : BProof (ZMod p) G),
      idealProve gen (newDomain S root) oracle extra d.size (Y 0).key.commitKey Y' r = .ok π →
      outcome S root gen oracle extra Y' r = .ok π ∨ outcome S root gen oracle extra Y' r = .error .wrongQuotientDegree ∨
        outcome S root gen oracle extra Y' r = .error (.snark .panic) := by
    intro r π hπ
    rw [outcome_eq hroot hY', ← hkey 0]
    rcases proveRunsWith_other (fun q ts h => idealSplit_of_ok h) hπ with h1 | ⟨q, e, h1, h2⟩
    · exact Or.inl h1
    · rcases splitQuot_error h1 with rfl | rfl
      · exact Or.inr (Or.inl h2)
      · exact Or.inr (Or.inr h2)
  -- the randomness for the other witness
  have hmap : ∀ r : TurboRand p (len + 1), ∃ r' : TurboRand p (len + 1), ∀ π,
      outcome S root gen oracle extra Y r = .ok π →
      ¬ Degenerate x d (fun i => (Y' i).final) (challenges oracle extra vks pis π) →
      profile gen x d quot (challenges oracle extra vks pis π).α (challenges oracle extra vks pis π).β
        (challenges oracle extra vks pis π).γ (challenges oracle extra vks pis π).ζ Y r =
      profile gen x d quot (challenges oracle extra vks pis π).α (challenges oracle extra vks pis π).β
        (challenges oracle extra vks pis π).γ (challenges oracle extra vks pis π).ζ Y' r' := by
    intro r
    by_cases hr : ∃ π, outcome S root gen oracle extra Y r = .ok π ∧
      ¬ Degenerate x d (fun i => (Y' i).final) (challenges oracle extra vks pis π)
    · obtain ⟨π, hπ, hdeg⟩ := hr
      simp only [Degenerate, not_or] at hdeg
      have hsur := Finite.surjective_of_injective (profile_injective (gen := gen) (quot := quot)
        (α := (challenges oracle extra vks pis π).α) (β := (challenges oracle extra vks pis π).β)
        (γ := (challenges oracle extra vks pis π).γ) (Y := Y') hx0 hgood.prim.pow_eq_one hω hx hdeg.1
        (Ne.symm hdeg.2.1) (Ne.symm hdeg.2.2.1))
      obtain ⟨r', hr'⟩ := hsur (profile gen x d quot (challenges oracle extra vks pis π).α
        (challenges oracle extra vks pis π).β (challenges oracle extra vks pis π).γ
        (challenges oracle extra vks pis π).ζ Y r)
      refine ⟨r', fun π' hπ' _ => ?_⟩
      rw [hπ] at hπ'
      obtain rfl := Except.ok.inj hπ'
      exact hr'.symm
    · exact ⟨r, fun π hπ hdeg => absurd ⟨π, hπ, hdeg⟩ hr⟩
  choose φ hφ using hmap
  have hex : ∀ (r : TurboRand p (len + 1)) (π : BProof (ZMod p) G), outcome S root gen oracle extra Y r = .ok π →
      ¬ Degenerate x d (fun i => (Y' i).final) (challenges oracle extra vks pis π) →
      idealProve gen (newDomain S root) oracle extra d.size (Y 0).key.commitKey Y' (φ r) = .ok π := by
    intro r π hπ hdeg
    have hp := hφ r π hπ hdeg
    simp only [Degenerate, not_or, not_exists, not_not] at hdeg
    exact exchange hroot hY hY' hkey hin hck hgen hq hz 0 (hideal r π hπ) rfl hx0 hx (Ne.symm hdeg.2.1)
      (Ne.symm hdeg.2.2.1) hdeg.2.2.2 hp
  -- counting
  have hc1 : {r | ∃ π ∈ A, outcome S root gen oracle extra Y r = .ok π} ⊆
      {r | ∃ π ∈ A, outcome S root gen oracle extra Y r = .ok π ∧
        ¬ Degenerate x d (fun i => (Y' i).final) (challenges oracle extra vks pis π)} ∪
      {r | ∃ π, outcome S root gen oracle extra Y r = .ok π ∧
        Degenerate x d (fun i => (Y' i).final) (challenges oracle extra vks pis π)} := by
    rintro r ⟨π, hA, hπ⟩
    by_cases hdeg : Degenerate x d (fun i => (Y' i).final) (challenges oracle extra vks pis π)
    · exact Or.inr ⟨π, hπ, hdeg⟩
    · exact Or.inl ⟨π, hA, hπ, hdeg⟩
  have hc2 : {r | ∃ π ∈ A, outcome S root gen oracle extra Y r = .ok π ∧
        ¬ Degenerate x d (fun i => (Y' i).final) (challenges oracle extra vks pis π)}.ncard ≤
      {r | ∃ π ∈ A, idealProve gen (newDomain S root) oracle extra d.size (Y 0).key.commitKey Y' r = .ok π}.ncard := by
    refine Set.ncard_le_ncard_of_injOn φ ?_ ?_ (Set.toFinite _)
    · rintro r ⟨π, hA, hπ, hdeg⟩
      exact ⟨π, hA, hex r π hπ hdeg⟩
    · rintro r ⟨π, -, hπ, hdeg⟩ s ⟨π', -, hπ', hdeg'⟩ hrs
      have e1 := hex r π hπ hdeg
      have e2 := hex s π' hπ' hdeg'
      rw [hrs, e2] at e1
      obtain rfl := Except.ok.inj e1
      have p1 := hφ r _ hπ hdeg
      have p2 := hφ s _ hπ' hdeg
      rw [hrs, ← p2] at p1
      simp only [Degenerate, not_or] at hdeg
      exact profile_injective hx0 hgood.prim.pow_eq_one hω hx hdeg.1 (Ne.symm hdeg.2.1) (Ne.symm hdeg.2.2.1) p1
  have hc3 : {r | ∃ π ∈ A, idealProve gen (newDomain S root) oracle extra d.size (Y 0).key.commitKey Y' r = .ok π} ⊆
      {r | ∃ π ∈ A, outcome S root gen oracle extra Y' r = .ok π} ∪
      {r | outcome S root gen oracle extra Y' r = .error .wrongQuotientDegree ∨
        outcome S root gen oracle extra Y' r = .error (.snark .panic)} := by
    rintro r ⟨π, hA, hπ⟩
    rcases hback r π hπ with h1 | h1
    · exact Or.inl ⟨π, hA, h1⟩
    · exact Or.inr h1
  calc _ ≤ _ := Set.ncard_le_ncard hc1 (Set.toFinite _)
    _ ≤ _ := Set.ncard_union_le _ _
    _ ≤ _ := Nat.add_le_add_right (hc2.trans ((Set.ncard_le_ncard hc3 (Set.toFinite _)).trans
      (Set.ncard_union_le _ _))) _

/-- C78: the number of choices of the randomness -/
theorem C78_turbo_total (p len : ℕ) [Fact p.Prime] : Nat.card (TurboRand p len) = p ^ (13 * len + 4) := by
  have : NeZero p := ⟨(Fact.out : p.Prime).ne_zero⟩
  rw [Nat.card_eq_fintype_card]
  simp only [TurboRand, Fintype.card_prod, Fintype.card_fun, ZMod.card, Fintype.card_fin]
  ring

/-- C78: challenges are rarely degenerate: at most `n + 2` points of evaluation are, and for every `β` at most
five times `n - 1` values of `γ`. -/
theorem C78_turbo_rare (hroot : IsPrimitiveRoot root (2 ^ S)) {x : ZMod p} {g : G} {h : G2} {m : ℕ} {y : Case p G G2}
    (H : Honest S root rnd x g h m y.circ y.final y.key y.inputs) (hturbo : y.circ.ultra = none) :
    {ζ | ζ ^ y.final.dom.size = 1 ∨ ζ = x ∨ ζ * y.final.dom.gen = x}.ncard ≤ y.final.dom.size + 2 ∧
      ∀ β, {γ | ¬ PermDefined y.final β γ}.ncard ≤ 5 * (y.final.dom.size - 1) := by
  obtain ⟨hdom, -⟩ := finalize_ok H.final
  have hd := (good_of_newDomain hroot hdom).1
  have hn := size_pos y.final.dom
  constructor
  · have hg0 : y.final.dom.gen ≠ 0 := by
      intro h0
      have := hd.prim.pow_eq_one
      rw [h0, zero_pow hn.ne'] at this
      exact zero_ne_one this
    have e : {ζ | ζ ^ y.final.dom.size = 1 ∨ ζ = x ∨ ζ * y.final.dom.gen = x} ⊆
        ((nthRootsFinset y.final.dom.size (1 : ZMod p) ∪ {x, x / y.final.dom.gen} : Finset (ZMod p)) : Set (ZMod p)) := by
      rintro ζ (h1 | h1 | h1)
      · simp [mem_nthRootsFinset hn, h1]
      · simp [h1]
      · have : ζ = x / y.final.dom.gen := by
          rw [eq_div_iff hg0]
          exact h1
        simp [this]
    refine (Set.ncard_le_ncard e (Set.toFinite _)).trans ?_
    rw [Set.ncard_coe_finset]
    refine (Finset.card_union_le _ _).trans (Nat.add_le_add ?_ Finset.card_le_two)
    unfold nthRootsFinset
    exact (@Multiset.toFinset_card_le _ (Classical.decEq _) _).trans (card_nthRoots _ _)
  · intro β
    obtain ⟨v, hv⟩ := slots_exist y.final
    have hw : Props.CopyConstraints.width y.final.circ = 5 := by
      unfold Props.CopyConstraints.width
      rw [final_ultra H.built H.final, hturbo]
      rfl
    have e : {γ | ¬ PermDefined y.final β γ} ⊆ ((Finset.image (fun s : ℕ × ℕ => -(v s + β *
        Props.CopyConstraints.label y.final (Props.CopyConstraints.next y.final s)))
        (Finset.range 5 ×ˢ Finset.range (y.final.dom.size - 1)) : Finset (ZMod p)) : Set (ZMod p)) := by
      intro γ hγ
      change ¬ PermDefined y.final β γ at hγ
      unfold PermDefined at hγ
      push Not at hγ
      obtain ⟨v', hv', j, hj, h0⟩ := hγ
      unfold Props.CopyConstraints.rowDen at h0
      rw [hw, Finset.prod_eq_zero_iff] at h0
      obtain ⟨i, hi, h0⟩ := h0
      have hi := Finset.mem_range.1 hi
      obtain ⟨w, hw', -⟩ := (Props.CopyConstraints.C23_slots H.built H.final (i, j)).1 (by
        unfold Props.CopyConstraints.slots
        rw [hw, Finset.mem_product, Finset.mem_range, Finset.mem_range]
        exact ⟨hi, by simp only; omega⟩)
      have e : v' (i, j) = v (i, j) := by rw [hv' _ _ hw', hv _ _ hw']
      rw [e] at h0
      simp only [Finset.coe_image, Set.mem_image, Finset.mem_coe, Finset.mem_product, Finset.mem_range]
      exact ⟨(i, j), ⟨hi, by omega⟩, by linear_combination -h0⟩
    refine (Set.ncard_le_ncard e (Set.toFinite _)).trans ?_
    rw [Set.ncard_coe_finset]
    refine Finset.card_image_le.trans ?_
    simp

/-! ### Two witnesses of a product -/

/-- a circuit with the product of the variables 3 and 4 constrained to be the variable 2 -/
def withMul (c : Circ 193) : Circ 193 := built (insertGate 3 4 0 0 2 multiplicationGate c)

theorem built_mul {c : Circ 193} (h : Built c) (h5 : 4 < c.numVars) : Built (withMul c) := by
  have e : insertGate 3 4 0 0 2 multiplicationGate c =
      .ok ((), { c with rows := c.rows ++ [⟨multiplicationGate, 3, 4, 0, 0, 2⟩] }) := by
    unfold insertGate
    rw [if_neg (by simp [h.ok.wf.opn])]
  have := Built.gate c _ 3 4 0 0 2 multiplicationGate h rfl rfl (by omega) h5 (by omega) (by omega) (by omega) e
  unfold withMul
  rw [e]
  exact this

/-- a TurboPlonk circuit with the public input 12 and two secret factors -/
def exT (a b : ZMod 193) : Circ 193 := withMul (withVar (withVar (withPub (Circ.new 193 none) 12) a) b)

/-- challenges -/
def sqOracle (calls : List (Call (ZMod 193) (ZMod 193) (ZMod 193))) : ZMod 193 := (calls.length ^ 2 : ℕ)

/-- randomness of the prover -/
def exRand : TurboRand 193 1 := (fun _ => (fun j => (j.val + 3, 2 * j.val + 5), (1, 2, 3)), fun k => k.val + 1)

/-- the instances with the factors 2 and 6, and with the factors 3 and 4, have the same key and there are proofs for
both -/
theorem exT_cases : ∃ y y' : Case 193 (ZMod 193) (ZMod 193),
    Honest 6 125 rnd193 (5 : ZMod 193) (1 : ZMod 193) (1 : ZMod 193) 10 y.circ y.final y.key y.inputs ∧
    Honest 6 125 rnd193 (5 : ZMod 193) (1 : ZMod 193) (1 : ZMod 193) 10 y'.circ y'.final y'.key y'.inputs ∧
    y.circ = exT 2 6 ∧ y'.circ = exT 3 4 ∧ y.key = y'.key ∧ y.inputs = y'.inputs ∧ y.final.dom.size = 4 ∧
    newDomain 6 125 4 = some y.final.dom ∧
    (∃ π, outcome 6 125 5 sqOracle none (fun _ : Fin 1 => y) exRand = .ok π) ∧
    ∃ π, outcome 6 125 5 sqOracle none (fun _ : Fin 1 => y') exRand = .ok π := by
  have h1 : okAnd (finalize' 6 125 rnd193 (exT 2 6)) (fun f =>
      okAnd (preprocess (p := 193) rnd193 (genSrs (5 : ZMod 193) (1 : ZMod 193) (1 : ZMod 193) 10 1) f) fun pk =>
      okAnd (batchProve 5 (newDomain 6 125) sqOracle none exRand.masks exRand.quot [f.arith] [pk]) fun _ =>
        decide (f.dom.size = 4)) = true := by
    decide +kernel
  have h2 : okAnd (finalize' 6 125 rnd193 (exT 3 4)) (fun f =>
      okAnd (preprocess (p := 193) rnd193 (genSrs (5 : ZMod 193) (1 : ZMod 193) (1 : ZMod 193) 10 1) f) fun pk =>
      okAnd (batchProve 5 (newDomain 6 125) sqOracle none exRand.masks exRand.quot [f.arith] [pk]) fun _ =>
        decide (f.dom.size = 4)) = true := by
    decide +kernel
  have h3 : okAnd (finalize' 6 125 rnd193 (exT 2 6)) (fun f =>
      okAnd (preprocess (p := 193) rnd193 (genSrs (5 : ZMod 193) (1 : ZMod 193) (1 : ZMod 193) 10 1) f) fun pk =>
      okAnd (finalize' 6 125 rnd193 (exT 3 4)) fun f' =>
      okAnd (preprocess (p := 193) rnd193 (genSrs (5 : ZMod 193) (1 : ZMod 193) (1 : ZMod 193) 10 1) f') fun pk' =>
        decide (pk = pk')) = true := by
    decide +kernel
  obtain ⟨f, hf, h1⟩ := okAnd_elim h1
  obtain ⟨pk, hpk, h1⟩ := okAnd_elim h1
  obtain ⟨π, hπ, h1⟩ := okAnd_elim h1
  obtain ⟨f', hf', h2⟩ := okAnd_elim h2
  obtain ⟨pk', hpk', h2⟩ := okAnd_elim h2
  obtain ⟨π', hπ', h2⟩ := okAnd_elim h2
  rw [decide_eq_true_iff] at h1 h2
  rw [hf, hf'] at h3
  simp only [okAnd, hpk, hpk', decide_eq_true_iff] at h3
  have hb : ∀ a b, 4 < (withVar (withVar (withPub (Circ.new 193 none) 12) a) b).numVars → Built (exT a b) :=
    fun a b h => built_mul (built_var (built_var (built_pub (Built.new none) 12) a) b) h
  have H : Honest 6 125 rnd193 (5 : ZMod 193) (1 : ZMod 193) (1 : ZMod 193) 10 (exT 2 6) f pk [12] :=
    ⟨hb 2 6 (by decide +kernel), by rw [finalize_eq]; exact hf, fun k hk => (by cases hk), by omega, hpk,
      by decide +kernel, by decide +kernel⟩
  have H' : Honest 6 125 rnd193 (5 : ZMod 193) (1 : ZMod 193) (1 : ZMod 193) 10 (exT 3 4) f' pk' [12] :=
    ⟨hb 3 4 (by decide +kernel), by rw [finalize_eq]; exact hf', fun k hk => (by cases hk), by omega, hpk',
      by decide +kernel, by decide +kernel⟩
  refine ⟨⟨_, f, pk, [12]⟩, ⟨_, f', pk', [12]⟩, H, H', rfl, rfl, h3, rfl, h1, ?_, ⟨π, hπ⟩, ⟨π', hπ'⟩⟩
  have := newDomain_again (finalize_ok H.final).1
  rw [h1] at this
  exact this

/-- the premises of the theorem hold for the two witnesses -/
example : ∃ Y Y' : Fin 1 → Case 193 (ZMod 193) (ZMod 193), (Y 0).circ = exT 2 6 ∧ (Y' 0).circ = exT 3 4 ∧
    (∃ r π, outcome 6 125 5 sqOracle none Y r = .ok π) ∧ (∃ r π, outcome 6 125 5 sqOracle none Y' r = .ok π) ∧
    ∀ A : Set (BProof (ZMod 193) (ZMod 193)),
    {r | ∃ π ∈ A, outcome 6 125 5 sqOracle none Y r = .ok π}.ncard ≤
      {r | ∃ π ∈ A, outcome 6 125 5 sqOracle none Y' r = .ok π}.ncard +
      {r | outcome 6 125 5 sqOracle none Y' r = .error .wrongQuotientDegree ∨
        outcome 6 125 5 sqOracle none Y' r = .error (.snark .panic)}.ncard +
      {r | ∃ π, outcome 6 125 5 sqOracle none Y r = .ok π ∧ Degenerate 5 (Y 0).final.dom (fun i => (Y' i).final)
        (challenges sqOracle none (List.ofFn (fun i => (Y i).key.vk)) (List.ofFn (fun i => (Y i).inputs)) π)}.ncard := by
  obtain ⟨y, y', H, H', hc, hc', hkey, hin, h4, hd, ⟨π, hπ⟩, π', hπ'⟩ := exT_cases
  obtain ⟨quot, hq, hz⟩ : ∃ quot, newDomain 6 (125 : ZMod 193) (4 * domainSizeRatio 4 5) = some quot ∧
      ∀ i < quot.size / 4, ((5 : ZMod 193) * quot.gen ^ i) ^ 4 ≠ 1 := by
    have : okAnd (match newDomain 6 (125 : ZMod 193) (4 * domainSizeRatio 4 5) with
        | some q => (.ok q : Except Unit (Domain (ZMod 193)))
        | none => .error ()) (fun quot => decide (∀ i < quot.size / 4, ((5 : ZMod 193) * quot.gen ^ i) ^ 4 ≠ 1)) =
        true := by decide +kernel
    obtain ⟨q, hq, h⟩ := okAnd_elim this
    rw [decide_eq_true_iff] at h
    refine ⟨q, ?_, h⟩
    split at hq
    · rename_i q' hq'
      rw [hq', Except.ok.inj hq]
    · cases hq
  refine ⟨fun _ => y, fun _ => y', hc, hc', ⟨_, π, hπ⟩, ⟨_, π', hπ'⟩, fun A => ?_⟩
  exact C78_turbo_hiding prim125 (fun _ => H) (fun _ => H') (fun _ => hkey) (fun _ => hin)
    (fun _ => by simp only [hc]; rfl) (fun _ => rfl) (by decide +kernel) (quot := quot) (by simp only [h4]; exact hq)
    (by simp only [h4]; exact hz) (by decide +kernel) (by simp only [h4]; decide +kernel) _ _ A

end Verif.Props.Hiding
