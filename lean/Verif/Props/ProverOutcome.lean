import Verif.Plonk.ProverOutcome
import Verif.Plonk.Hiding

/-!
# C74: what the prover returns for satisfied circuits
-/

set_option linter.unusedSectionVars false

namespace Verif.Props.Prover

open Verif.Circuit Verif.Pcs Verif.Plonk Polynomial
open Verif.Props.Finalize Verif.Props.Verifier Verif.Props.EndToEnd Verif.Props.CopyConstraints

variable {p : ℕ} [Fact p.Prime] {S : ℕ} {root : ZMod p} {rnd : List (ZMod p)}
variable {G G2 GT : Type} [AddCommGroup G] [Module (ZMod p) G] [DecidableEq G]
  [AddCommGroup G2] [Module (ZMod p) G2] [DecidableEq G2]
  [AddCommGroup GT] [Module (ZMod p) GT] [DecidableEq GT]

/-! ## Specification -/

/-- the circuits with their keys and the randomness of the prover -/
def startRuns (L : List (Case p G G2)) (masks : ℕ → Masks (ZMod p)) : List (Run (ZMod p) G G2) :=
  L.mapIdx (fun i y => { cs := y.final.arith, pk := y.key, mask := masks i, zComm := 0 })

/-- the challenges that the prover draws before it computes the products -/
def Draws (oracle : List (Call (ZMod p) G G2) → ZMod p) (extra : Option (List ℕ)) (d : Domain (ZMod p))
    (L : List (Case p G G2)) (masks : ℕ → Masks (ZMod p)) (τ : Option (ZMod p)) (β γ : ZMod p) : Prop :=
  ∃ r1 r2 T, Started oracle extra d (startRuns L masks) r1 r2 T τ β γ

/-- the challenge that the prover draws after the products -/
def DrawsAlpha (oracle : List (Call (ZMod p) G G2) → ZMod p) (extra : Option (List ℕ)) (d : Domain (ZMod p))
    (L : List (Case p G G2)) (masks : ℕ → Masks (ZMod p)) (τ : Option (ZMod p)) (β γ α : ZMod p) : Prop :=
  ∃ r1 r2 T r3 Rs, Started oracle extra d (startRuns L masks) r1 r2 T τ β γ ∧ Alpha oracle d r2 r3 Rs T τ α β γ

/-- `T` is the quotient of the constraints of the circuits by `X ^ n - 1` -/
def IsQuotient (x : ZMod p) (g : G) (h : G2) (d : Domain (ZMod p)) (L : List (Case p G G2))
    (masks : ℕ → Masks (ZMod p)) (τ : Option (ZMod p)) (α β γ : ZMod p) (T : (ZMod p)[X]) : Prop :=
  ∃ Is, List.Forall₂ (fun r₀ I => ∃ r, Ran d τ β γ r₀ r ∧ Tracks (kzg x g) d (openKey x g h) r I)
      (startRuns L masks) Is ∧
    (X ^ d.size - 1) * T = batch d (τ.getD 0) α β γ Is (alphaBases α (firstLookup Is) Is.length)

/-! ## The checks -/

theorem startRuns_mem {L : List (Case p G G2)} {masks : ℕ → Masks (ZMod p)} :
    ∀ r ∈ startRuns L masks, ∃ y ∈ L, ∃ mask,
      r = { cs := y.final.arith, pk := y.key, mask := mask, zComm := 0 } := by
  intro r hr
  obtain ⟨i, hi, rfl⟩ := List.mem_mapIdx.1 hr
  exact ⟨L[i], List.getElem_mem hi, masks i, rfl⟩

theorem checkRuns_total {n nw : ℕ} : ∀ {l : List (Arith (ZMod p) × PKey (ZMod p) G G2)},
    (∀ y ∈ l, y.1.domSize = .ok n ∧ y.2.vk.domSize = n ∧ y.1.numInputs = y.2.vk.numInputs ∧
      y.1.lookup = y.2.lookup.isSome ∧ y.1.nw = nw) → checkRuns n nw l = .ok ()
  | [], _ => rfl
  | (c, pk) :: l, h => by
    obtain ⟨h1, h2, h3, h4, h5⟩ := h _ List.mem_cons_self
    unfold checkRuns
    rw [h1]
    simp only [ne_eq, not_true_eq_false, if_false]
    rw [if_neg (by simpa using h2), if_neg (by simpa using h3), if_neg (by simpa using h4),
      if_neg (by simpa using h5)]
    exact checkRuns_total fun y hy => h y (by simp [hy])

theorem honest_checks (hroot : IsPrimitiveRoot root (2 ^ S)) {x : ZMod p} {g : G} {h : G2} {m : ℕ} {c : Circ p}
    {f : FCirc p} {pk : PKey (ZMod p) G G2} {inputs : List (ZMod p)}
    (H : Honest S root rnd x g h m c f pk inputs) : f.arith.domSize = .ok f.dom.size ∧
      pk.vk.domSize = f.dom.size ∧ f.arith.numInputs = pk.vk.numInputs ∧ f.arith.lookup = pk.lookup.isSome := by
  obtain ⟨I0, hI0, rfl⟩ := C73_key H.built hroot H.final inputs H.inputs_length
  obtain ⟨pk', hpk, hvk, -, -, -, hlk⟩ := C73_preprocess H.built hroot H.final (fun k hk => (H.supported k hk).1.le)
    hI0 x g h H.size
  obtain rfl : pk = pk' := by
    rw [H.pre] at hpk
    exact Except.ok.inj hpk
  have hdom := (linked_of H.built H.final).full.dom
  have hn := final_size H.final
  refine ⟨?_, by rw [hvk]; rfl, ?_, ?_⟩
  · unfold FCirc.arith
    simp only
    rw [if_neg (by omega)]
  · rw [hvk]
    exact hI0.inputs.symm
  · show f.circ.ultra.isSome = _
    rw [← hI0.lookup]
    cases h1 : pk.lookup <;> cases h2 : I0.lookup <;> rw [h1, h2] at hlk <;> first | rfl | exact hlk.elim

/-- the prover after its checks -/
theorem batchProve_eq (hroot : IsPrimitiveRoot root (2 ^ S)) {x : ZMod p} {g : G} {h : G2} {m : ℕ}
    {y0 : Case p G G2} {L' : List (Case p G G2)} {n nw : ℕ}
    (H : ∀ y ∈ y0 :: L', Honest S root rnd x g h m y.circ y.final y.key y.inputs)
    (hsame : ∀ y ∈ y0 :: L', y.final.dom.size = n ∧ numWireTypes y.final.circ = nw)
    (gen : ZMod p) (oracle : List (Call (ZMod p) G G2) → ZMod p) (extra : Option (List ℕ))
    (masks : ℕ → Masks (ZMod p)) (quotMask : ℕ → ZMod p) :
    batchProve gen (newDomain S root) oracle extra masks quotMask ((y0 :: L').map (·.final.arith))
      ((y0 :: L').map (·.key)) =
    proveRuns gen (newDomain S root) oracle extra quotMask n nw y0.key.commitKey (startRuns (y0 :: L') masks) := by
  have hzip : (L'.map (·.final.arith)).zip (L'.map (·.key)) = L'.map (fun y => (y.final.arith, y.key)) := by
    rw [List.zip_map']
  have hchk : checkRuns n y0.final.arith.nw ((y0 :: L').map (fun y => (y.final.arith, y.key))) = .ok () := by
    refine checkRuns_total fun z hz => ?_
    obtain ⟨y, hy, rfl⟩ := List.mem_map.1 hz
    obtain ⟨h1, h2, h3, h4⟩ := honest_checks hroot (H y hy)
    have e1 := (hsame y hy).1
    exact ⟨by rw [h1, e1], by rw [h2, e1], h3, h4,
      (hsame y hy).2.trans (hsame y0 List.mem_cons_self).2.symm⟩
  have h0 := (honest_checks hroot (H y0 List.mem_cons_self)).1
  rw [(hsame y0 List.mem_cons_self).1] at h0
  simp only [List.map_cons, batchProve, List.length_map, ne_eq, not_true_eq_false, if_false, List.zip_cons_cons, hzip]
  rw [h0]
  simp only
  rw [List.map_cons] at hchk
  rw [hchk]
  simp only
  have e1 : y0.final.arith.nw = nw := (hsame y0 List.mem_cons_self).2
  rw [e1]
  congr 1
  unfold startRuns
  rw [← List.map_cons (f := fun y : Case p G G2 => (y.final.arith, y.key))]
  refine List.ext_getElem (by simp) fun i _ _ => ?_
  simp only [List.getElem_mapIdx, List.getElem_map]

/-! ## The outcome -/

/-- C74: for satisfied circuits of the same kind and size there are exactly these outcomes: a panic because a
denominator in a product is zero, an error because the quotient does not have the expected degree, a panic because
the highest coefficient of a part of the quotient or a randomizer is zero, or a proof, which is accepted. -/
theorem C74_outcome (hroot : IsPrimitiveRoot root (2 ^ S)) {x : ZMod p} {g : G} {h : G2} {m : ℕ}
    {L : List (Case p G G2)} (hne : L ≠ [])
    (H : ∀ y ∈ L, Honest S root rnd x g h m y.circ y.final y.key y.inputs)
    {d : Domain (ZMod p)} {nw : ℕ} (hsame : ∀ y ∈ L, y.final.dom = d ∧ numWireTypes y.final.circ = nw)
    {gen : ZMod p} (hgen : gen ≠ 0) {quot : Domain (ZMod p)}
    (hq : newDomain S root (d.size * domainSizeRatio d.size nw) = some quot)
    (hz : ∀ i < quot.size / d.size, (gen * quot.gen ^ i) ^ d.size ≠ 1)
    (e : G →ₗ[ZMod p] G2 →ₗ[ZMod p] GT) (he : e g h ≠ 0) (hash : List (ZMod p) → ZMod p)
    (oracle : List (Call (ZMod p) G G2) → ZMod p) (extra : Option (List ℕ))
    (masks : ℕ → Masks (ZMod p)) (quotMask : ℕ → ZMod p) :
    ∃ τ β γ, Draws oracle extra d L masks τ β γ ∧
      (((∃ y ∈ L, ¬ Defined y.final τ β γ) ∧
        batchProve gen (newDomain S root) oracle extra masks quotMask (L.map (·.final.arith)) (L.map (·.key)) =
          .error (.circuit .panic)) ∨
      (∀ y ∈ L, Defined y.final τ β γ) ∧ ∃ α T, DrawsAlpha oracle extra d L masks τ β γ α ∧
        IsQuotient x g h d L masks τ α β γ T ∧
        ((T.natDegree ≠ nw * (d.size + 1) + 2 ∧
          batchProve gen (newDomain S root) oracle extra masks quotMask (L.map (·.final.arith)) (L.map (·.key)) =
            .error .wrongQuotientDegree) ∨
        T.natDegree = nw * (d.size + 1) + 2 ∧
        (((∃ i < nw - 1, quotMask i = 0 ∨ T.coeff ((i + 1) * (d.size + 2) - 1) = 0) ∧
          batchProve gen (newDomain S root) oracle extra masks quotMask (L.map (·.final.arith)) (L.map (·.key)) =
            .error (.snark .panic)) ∨
        (∀ i < nw - 1, quotMask i ≠ 0 ∧ T.coeff ((i + 1) * (d.size + 2) - 1) ≠ 0) ∧ ∃ π,
          batchProve gen (newDomain S root) oracle extra masks quotMask (L.map (·.final.arith)) (L.map (·.key)) =
            .ok π ∧
          verifyBatch (newDomain S root) e hash (challenges oracle extra) (L.map (·.key.vk)) (L.map (·.inputs)) π =
            .ok true))) := by
  have hhon := fun π hπ => C74_honest (L := L) (GT := GT) hroot H e he hash hgen (oracle := oracle) (extra := extra)
    (masks := masks) (quotMask := quotMask) (π := π) hπ
  obtain _ | ⟨y0, L'⟩ := L
  · exact absurd rfl hne
  set L := y0 :: L' with hL
  have H0 := H y0 (by simp [hL])
  have hd0 : y0.final.dom = d := (hsame y0 (by simp [hL])).1
  have hnw0 : numWireTypes y0.final.circ = nw := (hsame y0 (by simp [hL])).2
  have heq := batchProve_eq hroot H (n := d.size) (nw := nw)
    (fun y hy => ⟨by rw [(hsame y hy).1], (hsame y hy).2⟩) gen oracle extra masks quotMask
  rw [heq] at hhon ⊢
  clear heq
  obtain ⟨hdom0, -⟩ := finalize_ok H0.final
  have hd := newDomain_again hdom0
  rw [hd0] at hd hdom0
  have h1 := final_size H0.final
  rw [hd0] at h1
  have hn5 : 5 ≤ nw ∧ nw ≤ 6 := by
    rw [← hnw0]
    unfold numWireTypes
    split <;> omega
  have hrm := startRuns_mem (L := L) (masks := masks)
  have hlook : ∀ y ∈ L, y.final.circ.ultra.isSome = y0.final.circ.ultra.isSome := by
    intro y hy
    have := (hsame y hy).2.trans hnw0.symm
    unfold numWireTypes at this
    cases h1 : y.final.circ.ultra <;> cases h2 : y0.final.circ.ultra <;> simp [h1, h2] at this ⊢
  obtain ⟨hfine, hsize⟩ := quotient_domain hroot hd (by omega) (by omega) hq
  have hck := H0.keys hroot
  rw [hd0] at hck
  obtain ⟨r1, r2, T4, τ, β, γ, hst, hτ, hout⟩ := proveRunsWith_outcome (com := kzg x g) (d := d) (ok := openKey x g h) hck
    hgen hd hq hfine hsize hz (oracle := oracle) (extra := extra) (splitQuot_splits d hn5.1 quotMask)
    (rs := startRuns L masks) (by simp [startRuns, hL]) (b := y0.final.circ.ultra.isSome)
    (fun r hr => by
      obtain ⟨y, hy, mask, rfl⟩ := hrm r hr
      exact hlook y hy)
    (fun r hr => by
      obtain ⟨y, hy, mask, rfl⟩ := hrm r hr
      exact ⟨_, (H y hy).publicInput⟩)
    (fun r hr => by
      obtain ⟨y, hy, mask, rfl⟩ := hrm r hr
      obtain ⟨s1, e1, e2⟩ := (H y hy).rounds hroot mask
      rw [(hsame y hy).1] at e1 e2
      refine ⟨s1, e1, fun τ hτ => ?_⟩
      obtain ⟨s2, e3, e4⟩ := e2 τ (by rw [hlook y hy]; exact hτ)
      refine ⟨s2, e3, fun β γ => ?_⟩
      rcases e4 β γ with ⟨s3, e5, ⟨-, e6⟩ | ⟨-, e6⟩⟩ | ⟨-, e5⟩
      · exact Or.inl ⟨s3, e5, Or.inl e6⟩
      · exact Or.inl ⟨s3, e5, Or.inr e6⟩
      · exact Or.inr e5)
    (fun r hr τ β γ r' _ hran => by
      obtain ⟨y, hy, mask, rfl⟩ := hrm r hr
      rw [← (hsame y hy).1] at hran ⊢
      obtain ⟨I, hI1, hI2, hI3⟩ := (H y hy).run hroot hran
      exact ⟨I, hI1, hI2.trans (hsame y hy).2, hI3⟩)
  refine ⟨τ, β, γ, ⟨r1, r2, T4, hst⟩, ?_⟩
  have hdef : ∀ y ∈ L, ∀ mask, (∃ r, Ran d τ β γ { cs := y.final.arith, pk := y.key, mask := mask, zComm := 0 } r) ↔
      Defined y.final τ β γ := by
    intro y hy mask
    rw [← (hsame y hy).1]
    exact (H y hy).ran_iff hroot mask (by rw [hlook y hy]; exact hτ) β γ
  rcases hout with ⟨hE, r₀, hr₀, hno⟩ | ⟨r3, Rs, α, Is, q, hal, hIs, hquo, hqdeg, hout⟩
  · left
    obtain ⟨y, hy, mask, rfl⟩ := hrm r₀ hr₀
    rw [hdef y hy] at hno
    exact ⟨⟨y, hy, hno⟩, hE⟩
  right
  have hran := ran_of hst hal
  refine ⟨fun y hy => ?_, α, toPoly q, ⟨r1, r2, T4, r3, Rs, hst, hal⟩, ⟨Is, (forall₂_comp hran hIs).imp fun _ _ ⟨r, a, b⟩ => ⟨r, a, b.1⟩, hquo⟩, ?_⟩
  · obtain ⟨i, hi, rfl⟩ := List.mem_iff_getElem.1 hy
    rw [← hdef _ hy (masks i)]
    have hi' : i < (startRuns L masks).length := by simpa [startRuns] using hi
    have := (List.forall₂_iff_get.1 hran).2 i hi' (by rw [← hran.length_eq]; exact hi')
    exact ⟨_, by simpa [startRuns] using this⟩
  rcases splitQuot_cases (n := d.size) (nw := nw) (by omega) (by omega) quotMask hqdeg with ⟨h2, h3⟩ |
    ⟨h2, ⟨h3, h4⟩ | ⟨h3, ts, h4⟩⟩
  · rcases hout with ⟨er, h5, h6⟩ | ⟨⟨ts, h5⟩, -⟩
    · rw [h3] at h5
      rw [← Except.error.inj h5] at h6
      exact Or.inl ⟨h2, h6⟩
    · rw [h3] at h5
      cases h5
  · rcases hout with ⟨er, h5, h6⟩ | ⟨⟨ts, h5⟩, -⟩
    · rw [h4] at h5
      rw [← Except.error.inj h5] at h6
      exact Or.inr ⟨h2, Or.inl ⟨h3, h6⟩⟩
    · rw [h4] at h5
      cases h5
  · rcases hout with ⟨er, h5, h6⟩ | ⟨-, π, h6⟩
    · rw [h4] at h5
      cases h5
    · exact Or.inr ⟨h2, Or.inr ⟨h3, π, h6, hhon π h6⟩⟩

/-! ## The degree of the quotient -/

theorem wireMask_coeff {n : ℕ} (m : ZMod p × ZMod p) (hn : 1 ≤ n) : (wireMask n m).coeff (n + 1) = m.2 := by
  have e : wireMask n m = C m.2 * X ^ (n + 1) + C m.1 * X ^ n - C m.2 * X ^ 1 - C m.1 * X ^ 0 := by
    unfold wireMask
    ring
  rw [e]
  simp only [coeff_sub, coeff_add, coeff_C_mul_X_pow]
  rw [if_pos trivial, if_neg (by omega), if_neg (by omega), if_neg (by omega)]
  ring

theorem prodMask_coeff {n : ℕ} (m : ZMod p × ZMod p × ZMod p) (hn : 1 ≤ n) :
    (prodMask n m).coeff (n + 2) = m.2.2 := by
  have e : prodMask n m = C m.2.2 * X ^ (n + 2) + C m.2.1 * X ^ (n + 1) + C m.1 * X ^ n - C m.2.2 * X ^ 2 -
      C m.2.1 * X ^ 1 - C m.1 * X ^ 0 := by
    unfold prodMask
    ring
  rw [e]
  simp only [coeff_sub, coeff_add, coeff_C_mul_X_pow]
  rw [if_pos trivial, if_neg (by omega), if_neg (by omega), if_neg (by omega), if_neg (by omega), if_neg (by omega)]
  ring

/-- C74: the quotient of one circuit of at least three rows has the expected degree unless `α`, the last randomizer
of the permutation product or the last randomizer of a wire is zero. -/
theorem C74_degree (hroot : IsPrimitiveRoot root (2 ^ S)) {x : ZMod p} {g : G} {h : G2} {m : ℕ} {y : Case p G G2}
    (H : Honest S root rnd x g h m y.circ y.final y.key y.inputs) (hn : 3 ≤ y.final.dom.size)
    {masks : ℕ → Masks (ZMod p)} {τ : Option (ZMod p)} {α β γ : ZMod p} {T : (ZMod p)[X]}
    (hT : IsQuotient x g h y.final.dom [y] masks τ α β γ T) :
    T.natDegree = numWireTypes y.final.circ * (y.final.dom.size + 1) + 2 ↔
      α ≠ 0 ∧ (masks 0).z.2.2 ≠ 0 ∧ ∀ i < numWireTypes y.final.circ, ((masks 0).wire i).2 ≠ 0 := by
  obtain ⟨Is, hIs, hT⟩ := hT
  have e0 : startRuns [y] masks = [{ cs := y.final.arith, pk := y.key, mask := masks 0, zComm := 0 }] := rfl
  rw [e0] at hIs
  obtain ⟨I, Is', ⟨r, hran, htr⟩, hIs', rfl⟩ := List.forall₂_cons_left_iff.1 hIs
  obtain rfl := List.forall₂_nil_left_iff.1 hIs'
  obtain ⟨hdom, -⟩ := finalize_ok H.final
  obtain ⟨hd, ho⟩ := good_of_newDomain hroot hdom
  obtain ⟨J, hJ, hJnw, -⟩ := H.run hroot hran
  have hnw : I.nw = numWireTypes y.final.circ := by
    have h1 := htr.lookup
    have h2 := hJ.lookup
    rw [← hJnw]
    unfold Inst.nw
    cases h3 : I.lookup <;> cases h4 : J.lookup <;> rw [h3] at h1 <;> rw [h4] at h2 <;> simp [h2] at h1 ⊢
  set n := y.final.dom.size with hnn
  have hb : batch y.final.dom (τ.getD 0) α β γ [I] (alphaBases α (firstLookup [I]) [I].length) =
      combine (C α) (I.constraints y.final.dom (τ.getD 0) β γ) := by
    have : alphaBases α (firstLookup [I]) [I].length = [1] := rfl
    rw [this]
    simp [batch]
  rw [hb] at hT
  obtain ⟨hw, q, hq, hz⟩ := ran_masked hran htr
  have hqlt : (toPoly q).degree < n := by
    rcases prodPerm_cases hroot H β γ with ⟨-, Z, hZ, hl⟩ | ⟨-, hZ⟩
    · rw [hZ] at hq
      obtain rfl := Except.ok.inj hq
      rw [hnn, ← hl]
      exact toPoly_degree_lt _
    · rw [hZ] at hq
      cases hq
  have htop := htr.tight.top hd (by omega) (τ.getD 0) α β γ
  rw [← hT] at htop
  have hg2 : 1 - y.final.dom.gen ^ 2 ≠ 0 := by
    intro h0
    have h1 : y.final.dom.gen ^ 2 = 1 := (sub_eq_zero.1 h0).symm
    have := hd.prim.pow_eq_one_iff_dvd 2 |>.1 h1
    have := Nat.le_of_dvd (by norm_num) this
    omega
  have hwc : ∀ i ∈ Finset.range I.nw, (I.w i).coeff (n + 1) = ((masks 0).wire i).2 := by
    intro i hi
    rw [hw i (Finset.mem_range.1 hi), coeff_add, wireMask_coeff _ (by omega),
      coeff_eq_zero_of_degree_lt ((column_spec hroot H.built H.final i).1.trans_le (by norm_cast; omega)), zero_add]
  rw [Finset.prod_congr rfl hwc, hz, coeff_add, prodMask_coeff _ (by omega),
    coeff_eq_zero_of_degree_lt (hqlt.trans_le (by norm_cast; omega)), zero_add] at htop
  have hmon : (X ^ n - 1 : (ZMod p)[X]).Monic := monic_X_pow_sub_C 1 (by omega)
  have hnd : (X ^ n - 1 : (ZMod p)[X]).natDegree = n := natDegree_X_pow_sub_C
  have hle : (combine (C α) (I.constraints y.final.dom (τ.getD 0) β γ)).natDegree ≤ n + 2 + I.nw * (n + 1) :=
    nd_combine fun e he => htr.tight.constraints hd _ β γ e he
  have hdeg : ∀ _ : T ≠ 0, ((X ^ n - 1) * T).natDegree = n + T.natDegree := by
    intro h0
    rw [hmon.natDegree_mul' h0, hnd]
  have key : T.natDegree = I.nw * (n + 1) + 2 ↔ ((X ^ n - 1) * T).coeff (n + 2 + I.nw * (n + 1)) ≠ 0 := by
    constructor
    · intro h1
      have h0 : T ≠ 0 := by rintro rfl; simp at h1
      have h2 := hdeg h0
      have h3 : n + 2 + I.nw * (n + 1) = ((X ^ n - 1) * T).natDegree := by omega
      rw [h3]
      exact leadingCoeff_ne_zero.2 (mul_ne_zero hmon.ne_zero h0)
    · intro h1
      have h0 : T ≠ 0 := by rintro rfl; simp at h1
      have h2 := hdeg h0
      have h3 := le_natDegree_of_ne_zero h1
      rw [hT] at h2 h3
      omega
  rw [← hnw, key, htop]
  simp only [ne_eq, mul_eq_zero, not_or, Finset.prod_eq_zero_iff, not_exists, not_and, Finset.mem_range]
  tauto

/-! ## Examples -/

/-- a domain for the quotient, and no point of its coset is in the domain -/
theorem exV_quot : ∃ quot : Domain (ZMod 193), newDomain 6 125 (8 * domainSizeRatio 8 6) = some quot ∧
    ∀ i < quot.size / 8, ((5 : ZMod 193) * quot.gen ^ i) ^ 8 ≠ 1 := by
  refine ⟨(newDomain 6 125 (8 * domainSizeRatio 8 6)).get (by decide +kernel), (Option.some_get _).symm, ?_⟩
  decide +kernel

/-- the hypotheses hold for the UltraPlonk circuit, the outcome is a proof, and it is accepted -/
example : ∃ (y : Case 193 (ZMod 193) (ZMod 193)) (π : BProof (ZMod 193) (ZMod 193)),
    Honest 6 125 rnd193 (5 : ZMod 193) (1 : ZMod 193) (1 : ZMod 193) 10 y.circ y.final y.key y.inputs ∧
    (∃ τ β γ α T, Draws exOracle none y.final.dom [y] exMasks τ β γ ∧ Defined y.final τ β γ ∧
      IsQuotient (5 : ZMod 193) (1 : ZMod 193) (1 : ZMod 193) y.final.dom [y] exMasks τ α β γ T ∧
      T.natDegree = numWireTypes y.final.circ * (y.final.dom.size + 1) + 2) ∧
    batchProve 5 (newDomain 6 125) exOracle none exMasks (fun i => i + 1) [y.final.arith] [y.key] = .ok π ∧
    verifyBatch (newDomain 6 125) (LinearMap.mul (ZMod 193) (ZMod 193)) (fun _ => 7) (challenges exOracle none)
      [y.key.vk] [y.inputs] π = .ok true := by
  obtain ⟨y, π, H, hu, -, hn, hπ, -⟩ := exV_proved
  obtain ⟨quot, hq, hz⟩ := exV_quot
  have hw : numWireTypes y.final.circ = 6 := by
    unfold numWireTypes
    rw [final_ultra H.built H.final, hu]
  obtain ⟨τ, β, γ, hdraw, hout⟩ := C74_outcome (L := [y]) (d := y.final.dom) (nw := numWireTypes y.final.circ)
    (GT := ZMod 193) (prim125) (by simp) (by simpa using H) (by simp) (gen := 5) (by decide) (quot := quot)
    (by rw [hw, hn]; exact hq) (by rw [hn]; exact hz) (LinearMap.mul (ZMod 193) (ZMod 193)) (by decide)
    (fun _ => 7) exOracle none exMasks (fun i => i + 1)
  simp only [List.map_cons, List.map_nil, hπ, reduceCtorEq, and_false, false_or] at hout
  obtain ⟨h1, α, T, -, h2, h3, -, π', h4, h5⟩ := hout
  obtain rfl := Except.ok.inj h4
  exact ⟨y, π, H, ⟨τ, β, γ, α, T, hdraw, h1 y (by simp), h2, h3⟩, hπ, h5⟩

/-- the other outcomes: one zero randomizer of a wire, one zero randomizer of the quotient, and a challenge `γ` for
which a denominator is zero -/
theorem exV_failed : okAnd (finalize' 6 125 rnd193 exV) (fun f =>
      okAnd (preprocess (p := 193) rnd193 (genSrs (5 : ZMod 193) (1 : ZMod 193) (1 : ZMod 193) 10 1) f) fun pk =>
      (match batchProve 5 (newDomain 6 125) exOracle none
          (fun i => { exMasks i with wire := fun j => if j = 2 then (3, 0) else (i + j + 3, 2 * j + 5) })
          (fun i => i + 1) [f.arith] [pk] with
        | .error .wrongQuotientDegree => true
        | _ => false) &&
      (match batchProve 5 (newDomain 6 125) exOracle none exMasks (fun i => i) [f.arith] [pk] with
        | .error (.snark .panic) => true
        | _ => false) &&
      (match batchProve 5 (newDomain 6 125) (fun _ => 0) none exMasks (fun i => i + 1) [f.arith] [pk] with
        | .error (.circuit .panic) => true
        | _ => false)) = true := by
  decide +kernel

end Verif.Props.Prover
