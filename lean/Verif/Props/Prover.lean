import Verif.Plonk.ProverCircuit

/-!
# C74: proofs made by the prover are accepted
-/

set_option linter.unusedSectionVars false

namespace Verif.Props.Prover

open Verif.Circuit Verif.Pcs Verif.Plonk Polynomial
open Verif.Props.Finalize Verif.Props.Verifier Verif.Props.EndToEnd Verif.Props.CopyConstraints

variable {p : ℕ} [Fact p.Prime] {S : ℕ} {root : ZMod p} {rnd : List (ZMod p)}
variable {G G2 GT : Type} [AddCommGroup G] [Module (ZMod p) G] [DecidableEq G]
  [AddCommGroup G2] [Module (ZMod p) G2] [DecidableEq G2]
  [AddCommGroup GT] [Module (ZMod p) GT] [DecidableEq GT]

/-- a circuit, its finalized form, its proving key and its public inputs -/
structure Case (p : ℕ) [Fact p.Prime] (G G2 : Type) where
  circ : Circ p
  final : FCirc p
  key : PKey (ZMod p) G G2
  inputs : List (ZMod p)

/-- what the checks of the prover ensure -/
theorem checkRuns_ok {F : Type} [Field F] [DecidableEq F] [Module F G] {n nw : ℕ} :
    ∀ {l : List (Arith F × PKey F G G2)}, checkRuns n nw l = .ok () →
      ∀ y ∈ l, y.1.domSize = .ok n ∧ y.1.nw = nw
  | [], _, y, hy => by simp at hy
  | (c, pk) :: l, h, y, hy => by
    unfold checkRuns at h
    split at h
    · cases h
    · rename_i n' hn
      split_ifs at h with h1 h2 h3 h4 h5
      rcases List.mem_cons.1 hy with rfl | hy
      · exact ⟨by rw [hn]; simpa using h1, by simpa using h5⟩
      · exact checkRuns_ok h y hy

theorem verifyBatch_congr {F : Type} [Field F] [DecidableEq F] [Module F G] [Module F G2] [Module F GT]
    (newDom : ℕ → Option (Domain F)) (e : G →ₗ[F] G2 →ₗ[F] GT) (hash : List F → F)
    {chal chal' : List (VKey F G G2) → List (List F) → BProof F G → Chal F} {vks : List (VKey F G G2)}
    {pis : List (List F)} {b : BProof F G} (h : chal vks pis b = chal' vks pis b) :
    verifyBatch newDom e hash chal vks pis b = verifyBatch newDom e hash chal' vks pis b := by
  unfold verifyBatch
  rw [h]

theorem arith_size {f : FCirc p} {n : ℕ} (h : f.arith.domSize = .ok n) : f.dom.size = n := by
  unfold FCirc.arith at h
  simp only at h
  split at h
  · cases h
  · exact Except.ok.inj h

/-- what a proof returned by the prover is made of -/
theorem proved' (hroot : IsPrimitiveRoot root (2 ^ S)) {x : ZMod p} {g : G} {h : G2}
    {L : List (Case p G G2)}
    (H : ∀ y ∈ L, Provable S root x g h y.final y.key y.inputs)
    {gen : ZMod p} (hgen : gen ≠ 0) {oracle : List (Call (ZMod p) G G2) → ZMod p} {extra : Option (List ℕ)}
    {masks : ℕ → Masks (ZMod p)} {quotMask : ℕ → ZMod p} {π : BProof (ZMod p) G}
    (hπ : batchProve gen (newDomain S root) oracle extra masks quotMask (L.map (·.final.arith)) (L.map (·.key)) =
      .ok π) :
    ∃ y0 ∈ L, ∃ (Is : List (Inst (ZMod p))) (ch : Chal (ZMod p)) (τ : ZMod p) (ts : List (ZMod p)[X])
        (W W' : (ZMod p)[X]),
      (∀ y ∈ L, y.final.dom = y0.final.dom) ∧
      π = proof (kzg x g) (Is.map (fun I => (I, truth y0.final.dom ch.ζ I))) ts W W' ∧
      L.map (·.key.vk) = Is.map (fun I => I.key (kzg x g) y0.final.dom (openKey x g h)) ∧
      L.map (·.inputs) = Is.map (·.inputs) ∧
      challenges oracle extra (Is.map (fun I => I.key (kzg x g) y0.final.dom (openKey x g h)))
        (Is.map (·.inputs)) π = ch ∧
      Setting y0.final.dom ch τ (Is.map (fun I => (I, truth y0.final.dom ch.ζ I))) ts ∧
      (X - C ch.ζ) * W = residue y0.final.dom ch τ (Is.map (fun I => (I, truth y0.final.dom ch.ζ I))) ts +
        (parts ch.v (allItems (Is.map (fun I => (I, truth y0.final.dom ch.ζ I)))) ch.v 1).1 ∧
      (X - C (ch.ζ * y0.final.dom.gen)) * W' =
        (parts ch.v (allItems (Is.map (fun I => (I, truth y0.final.dom ch.ζ I)))) ch.v 1).2 ∧
      ∃ nw, (∀ I ∈ Is, I.Tight y0.final.dom.size ∧ I.nw = nw) ∧
      (batch y0.final.dom τ ch.α ch.β ch.γ Is (alphaBases ch.α (firstLookup Is) Is.length)).coeff
        (y0.final.dom.size + 2 + nw * (y0.final.dom.size + 1)) ≠ 0 ∧
      (Is.length = L.length ∧ ∀ (i : ℕ) y, L[i]? = some y → ∃ I r, Is[i]? = some I ∧
        Ran y0.final.dom ch.τ ch.β ch.γ { cs := y.final.arith, pk := y.key, mask := masks i, zComm := 0 } r ∧
        Tracks (kzg x g) y0.final.dom (openKey x g h) r I) ∧
      ∃ q ts₀, (X ^ y0.final.dom.size - 1) * toPoly q =
          batch y0.final.dom τ ch.α ch.β ch.γ Is (alphaBases ch.α (firstLookup Is) Is.length) ∧
        splitQuot y0.final.dom.size nw quotMask q = .ok ts₀ ∧ ts = ts₀.map toPoly := by
  obtain _ | ⟨y0, L'⟩ := L
  · simp [batchProve] at hπ
  set L := y0 :: L' with hL
  have H0 := H y0 (by simp [hL])
  have hzip : (L.map (·.final.arith)).zip (L.map (·.key)) = L.map (fun y => (y.final.arith, y.key)) := by
    rw [List.zip_map']
  -- the checks
  obtain ⟨n, hchk, hπ⟩ : ∃ n, checkRuns n y0.final.arith.nw (L.map (fun y => (y.final.arith, y.key))) = .ok () ∧
      proveRuns gen (newDomain S root) oracle extra quotMask n y0.final.arith.nw y0.key.commitKey
        ((L.map (fun y => (y.final.arith, y.key))).mapIdx (fun i x =>
          { cs := x.1, pk := x.2, mask := masks i, zComm := 0 })) = .ok π := by
    rw [hL] at hπ
    simp only [List.map_cons, batchProve] at hπ
    split at hπ
    · cases hπ
    split at hπ
    · cases hπ
    rename_i n hn
    split at hπ
    · cases hπ
    rename_i hchk
    rw [← hzip]
    exact ⟨n, hchk, hπ⟩
  have hall := checkRuns_ok hchk
  have hsize : ∀ y ∈ L, y.final.dom.size = n ∧ numWireTypes y.final.circ = numWireTypes y0.final.circ := by
    intro y hy
    obtain ⟨h1, h2⟩ := hall _ (List.mem_map.2 ⟨y, hy, rfl⟩)
    exact ⟨arith_size h1, h2⟩
  have hd := H0.dom
  have h1 := H0.size
  have hdom : ∀ y ∈ L, y.final.dom = y0.final.dom := by
    intro y hy
    have := (H y hy).dom
    rw [(hsize y hy).1, ← (hsize y0 (by simp [hL])).1, hd] at this
    exact (Option.some.inj this).symm
  obtain rfl : y0.final.dom.size = n := (hsize y0 (by simp [hL])).1
  set rs : List (Run (ZMod p) G G2) := (L.map (fun y => (y.final.arith, y.key))).mapIdx (fun i x =>
          { cs := x.1, pk := x.2, mask := masks i, zComm := 0 }) with hrs
  have hmem : ∀ r ∈ rs, ∃ y ∈ L, ∃ mask, r = { cs := y.final.arith, pk := y.key, mask := mask, zComm := 0 } := by
    intro r hr
    obtain ⟨i, hi, rfl⟩ := List.mem_mapIdx.1 hr
    rw [List.length_map] at hi
    exact ⟨L[i], List.getElem_mem hi, masks i, by simp⟩
  have hrsmap : ∀ {α : Type} (φ : Arith (ZMod p) → PKey (ZMod p) G G2 → α),
      rs.map (fun r => φ r.cs r.pk) = L.map (fun y => φ y.final.arith y.key) := by
    intro α φ
    rw [hrs]
    refine List.ext_getElem (by simp) fun i h1 h2 => ?_
    simp
  have hnw5 : 5 ≤ y0.final.arith.nw := by
    show 5 ≤ numWireTypes y0.final.circ
    unfold numWireTypes
    split <;> omega
  obtain ⟨Is, ch, τ, ts, W, W', hproof, hvks, hpis, hch, hset, ho1, ho2, htight, htop, hall2, hsplit⟩ :=
    proveRuns_ok (com := kzg x g) (d := y0.final.dom) (ok := openKey x g h) H0.keys hgen hnw5 hd
      (fun quot hq => quotient_domain hroot hd (by omega) (by omega) hq) (b := y0.final.circ.ultra.isSome)
      (fun r hr => by
        obtain ⟨y, hy, mask, rfl⟩ := hmem r hr
        show y.final.circ.ultra.isSome = _
        have := (hsize y hy).2
        unfold numWireTypes at this
        cases h1 : y.final.circ.ultra <;> cases h2 : y0.final.circ.ultra <;> simp [h1, h2] at this ⊢)
      (fun r hr τ β γ r' _ hran => by
        obtain ⟨y, hy, mask, rfl⟩ := hmem r hr
        rw [← hdom y hy] at hran ⊢
        obtain ⟨I, hI1, hI2, hI3⟩ := (H y hy).run hran
        exact ⟨I, hI1, hI2.trans (hsize y hy).2, hI3⟩) hπ
  have hin : Is.map (·.inputs) = L.map (·.inputs) := by
    have e1 := except_mapM (ε := PErr) (l := rs) (g := fun r => liftC r.cs.publicInput)
      (h := fun r => (match r.cs.publicInput with | .ok a => a | .error _ => []))
      (fun r hr => by
        obtain ⟨y, hy, mask, rfl⟩ := hmem r hr
        have : y.final.arith.publicInput = .ok y.inputs := (H y hy).input
        simp only [this]
        rfl)
    rw [hpis] at e1
    rw [Except.ok.inj e1]
    refine (hrsmap (fun a _ => match a.publicInput with | .ok a => a | .error _ => [])).trans ?_
    refine List.map_congr_left fun y hy => ?_
    have : y.final.arith.publicInput = .ok y.inputs := (H y hy).input
    simp only [this]
  have hv : L.map (·.key.vk) = Is.map (fun I => I.key (kzg x g) y0.final.dom (openKey x g h)) := by
    rw [← hvks]
    exact (hrsmap (fun _ k => k.vk)).symm
  refine ⟨y0, by simp [hL], Is, ch, τ, ts, W, W', hdom, hproof, hv, hin.symm, hch, hset, ho1, ho2, _, htight, htop,
    ⟨?_, fun i y hy => ?_⟩, hsplit⟩
  · rw [← hall2.length_eq, hrs]
    simp
  · obtain ⟨hi, rfl⟩ := List.getElem?_eq_some_iff.1 hy
    have hi1 : i < rs.length := by rw [hrs]; simpa using hi
    obtain ⟨r, h1, h2⟩ := (List.forall₂_iff_get.1 hall2).2 i hi1 (by rw [← hall2.length_eq]; exact hi1)
    refine ⟨_, r, List.getElem?_eq_getElem (by rw [← hall2.length_eq]; exact hi1), ?_, h2⟩
    simpa [hrs] using h1

theorem proved (hroot : IsPrimitiveRoot root (2 ^ S)) {x : ZMod p} {g : G} {h : G2} {m : ℕ}
    {L : List (Case p G G2)}
    (H : ∀ y ∈ L, Honest S root rnd x g h m y.circ y.final y.key y.inputs)
    {gen : ZMod p} (hgen : gen ≠ 0) {oracle : List (Call (ZMod p) G G2) → ZMod p} {extra : Option (List ℕ)}
    {masks : ℕ → Masks (ZMod p)} {quotMask : ℕ → ZMod p} {π : BProof (ZMod p) G}
    (hπ : batchProve gen (newDomain S root) oracle extra masks quotMask (L.map (·.final.arith)) (L.map (·.key)) =
      .ok π) :
    ∃ y0 ∈ L, ∃ (Is : List (Inst (ZMod p))) (ch : Chal (ZMod p)) (τ : ZMod p) (ts : List (ZMod p)[X])
        (W W' : (ZMod p)[X]),
      (∀ y ∈ L, y.final.dom = y0.final.dom) ∧
      π = proof (kzg x g) (Is.map (fun I => (I, truth y0.final.dom ch.ζ I))) ts W W' ∧
      L.map (·.key.vk) = Is.map (fun I => I.key (kzg x g) y0.final.dom (openKey x g h)) ∧
      L.map (·.inputs) = Is.map (·.inputs) ∧
      challenges oracle extra (Is.map (fun I => I.key (kzg x g) y0.final.dom (openKey x g h)))
        (Is.map (·.inputs)) π = ch ∧
      Setting y0.final.dom ch τ (Is.map (fun I => (I, truth y0.final.dom ch.ζ I))) ts ∧
      (X - C ch.ζ) * W = residue y0.final.dom ch τ (Is.map (fun I => (I, truth y0.final.dom ch.ζ I))) ts +
        (parts ch.v (allItems (Is.map (fun I => (I, truth y0.final.dom ch.ζ I)))) ch.v 1).1 ∧
      (X - C (ch.ζ * y0.final.dom.gen)) * W' =
        (parts ch.v (allItems (Is.map (fun I => (I, truth y0.final.dom ch.ζ I)))) ch.v 1).2 ∧
      ∃ nw, (∀ I ∈ Is, I.Tight y0.final.dom.size ∧ I.nw = nw) ∧
      (batch y0.final.dom τ ch.α ch.β ch.γ Is (alphaBases ch.α (firstLookup Is) Is.length)).coeff
        (y0.final.dom.size + 2 + nw * (y0.final.dom.size + 1)) ≠ 0 ∧
      (Is.length = L.length ∧ ∀ (i : ℕ) y, L[i]? = some y → ∃ I r, Is[i]? = some I ∧
        Ran y0.final.dom ch.τ ch.β ch.γ { cs := y.final.arith, pk := y.key, mask := masks i, zComm := 0 } r ∧
        Tracks (kzg x g) y0.final.dom (openKey x g h) r I) ∧
      ∃ q ts₀, (X ^ y0.final.dom.size - 1) * toPoly q =
          batch y0.final.dom τ ch.α ch.β ch.γ Is (alphaBases ch.α (firstLookup Is) Is.length) ∧
        splitQuot y0.final.dom.size nw quotMask q = .ok ts₀ ∧ ts = ts₀.map toPoly :=
  proved' hroot (fun y hy => (H y hy).provable hroot) hgen hπ

theorem accepted (hroot : IsPrimitiveRoot root (2 ^ S)) {x : ZMod p} {g : G} {h : G2}
    {L : List (Case p G G2)}
    (H : ∀ y ∈ L, Provable S root x g h y.final y.key y.inputs)
    (e : G →ₗ[ZMod p] G2 →ₗ[ZMod p] GT) (he : e g h ≠ 0) (hash : List (ZMod p) → ZMod p)
    {gen : ZMod p} (hgen : gen ≠ 0) {oracle : List (Call (ZMod p) G G2) → ZMod p} {extra : Option (List ℕ)}
    {masks : ℕ → Masks (ZMod p)} {quotMask : ℕ → ZMod p} {π : BProof (ZMod p) G}
    (hπ : batchProve gen (newDomain S root) oracle extra masks quotMask (L.map (·.final.arith)) (L.map (·.key)) =
      .ok π) :
    verifyBatch (newDomain S root) e hash (challenges oracle extra) (L.map (·.key.vk)) (L.map (·.inputs)) π =
      .ok true := by
  obtain ⟨y0, hy0, Is, ch, τ, ts, W, W', -, hproof, hv, hin, hch, hset, ho1, ho2, -⟩ := proved' hroot H hgen hπ
  have hd := (H y0 hy0).dom
  rw [hv, hin, verifyBatch_congr (chal' := fun _ _ _ => ch) _ _ _ hch, hproof]
  obtain ⟨info, i1, i2, i3, i4, i5, i6, i7⟩ := onPolynomials_ok hset W W'
  obtain ⟨info', j1, j2⟩ := C59_kzg hset W W' (newDomain S root) hd e hash x (openKey x g h) rfl he
  obtain rfl : info = info' := Except.ok.inj (i1.symm.trans j1)
  simp only [List.map_map, Function.comp_def] at j2
  refine j2.trans ?_
  rw [i2, i3, i4, i5, i6, i7, ho1, ho2]
  congr 1
  rw [decide_eq_true_iff]
  congr 1
  ring

/-- C74: whenever the prover returns a proof for satisfied circuits, the verifier accepts it, whatever the
randomness of the prover and the challenges. -/
theorem C74_honest (hroot : IsPrimitiveRoot root (2 ^ S)) {x : ZMod p} {g : G} {h : G2} {m : ℕ}
    {L : List (Case p G G2)}
    (H : ∀ y ∈ L, Honest S root rnd x g h m y.circ y.final y.key y.inputs)
    (e : G →ₗ[ZMod p] G2 →ₗ[ZMod p] GT) (he : e g h ≠ 0) (hash : List (ZMod p) → ZMod p)
    {gen : ZMod p} (hgen : gen ≠ 0) {oracle : List (Call (ZMod p) G G2) → ZMod p} {extra : Option (List ℕ)}
    {masks : ℕ → Masks (ZMod p)} {quotMask : ℕ → ZMod p} {π : BProof (ZMod p) G}
    (hπ : batchProve gen (newDomain S root) oracle extra masks quotMask (L.map (·.final.arith)) (L.map (·.key)) =
      .ok π) :
    verifyBatch (newDomain S root) e hash (challenges oracle extra) (L.map (·.key.vk)) (L.map (·.inputs)) π =
      .ok true :=
  accepted hroot (fun y hy => (H y hy).provable hroot) e he hash hgen hπ

/-- C74: over a domain with two points the prover never returns a proof, although the circuits are satisfied:
the leading coefficient of the quotient has the factor `1 - g ^ 2`. -/
theorem C74_two_rows_counterexample (hroot : IsPrimitiveRoot root (2 ^ S)) {x : ZMod p} {g : G} {h : G2} {m : ℕ}
    {L : List (Case p G G2)}
    (H : ∀ y ∈ L, Honest S root rnd x g h m y.circ y.final y.key y.inputs)
    (h2 : ∀ y ∈ L, y.final.dom.size = 2)
    {gen : ZMod p} (hgen : gen ≠ 0) (oracle : List (Call (ZMod p) G G2) → ZMod p) (extra : Option (List ℕ))
    (masks : ℕ → Masks (ZMod p)) (quotMask : ℕ → ZMod p) :
    ∃ e, batchProve gen (newDomain S root) oracle extra masks quotMask (L.map (·.final.arith)) (L.map (·.key)) =
      .error e := by
  cases hπ : batchProve gen (newDomain S root) oracle extra masks quotMask (L.map (·.final.arith)) (L.map (·.key)) with
  | error e => exact ⟨e, rfl⟩
  | ok π =>
    obtain ⟨y0, hy0, Is, ch, τ, ts, W, W', -, -, -, -, -, -, -, -, nw, htight, htop, -⟩ := proved hroot H hgen hπ
    obtain ⟨hd, -⟩ := good_of_newDomain hroot (finalize_ok (H y0 hy0).final).1
    exact absurd (batch_top hd (h2 y0 hy0) htight τ _ _ _ _) htop

/-! ### Examples -/

instance : Fact (Nat.Prime 193) := ⟨by norm_num⟩

theorem prim125 : IsPrimitiveRoot (125 : ZMod 193) (2 ^ 6) := by
  have h : orderOf (125 : ZMod 193) = 2 ^ (5 + 1) :=
    orderOf_eq_prime_pow (by decide +kernel) (by decide +kernel)
  rw [show 2 ^ 6 = orderOf (125 : ZMod 193) from h.symm]
  exact IsPrimitiveRoot.orderOf _

/-- some elements of `ZMod 193` to draw coset representatives from -/
def rnd193 : List (ZMod 193) := [5, 25, 125, 46, 37, 185, 153, 186]

/-- randomness of the prover -/
def exMasks (i : ℕ) : Masks (ZMod 193) :=
  ⟨fun j => (i + j + 3, 2 * j + 5), (1, 2, 3), (4, 5, 6), (7, 8, 9), (1, 1, 1)⟩

/-- challenges -/
def exOracle (calls : List (Call (ZMod 193) (ZMod 193) (ZMod 193))) : ZMod 193 := (calls.length : ℕ)

/-- an UltraPlonk circuit with two public inputs, a table of two rows, gates and a range check -/
def exV : Circ 193 :=
  withRange (withEq (withTab (withPub (withPub (Circ.new 193 (some 1)) 3) 5) [(0, 2, 3)]
    [(2, 3), (1, 1)])) 1

theorem built_exV : Built exV :=
  built_range (built_eq (built_tab (built_pub (built_pub (Built.new (some 1)) 3) 5) (by decide)
    (by decide))) (by decide) (k := 1) rfl

theorem placed_exV : TablesPlaced exV 8 := by
  have h1 : exV.tableGateIds = [(4, 2)] := by decide +kernel
  have h2 : exV.pubIds.length = 2 := by decide +kernel
  intro t ht i hi1 hi2
  rw [h1, List.mem_singleton] at ht
  subst ht
  simp at hi1 hi2
  omega

/-- the whole prover, for one UltraPlonk instance -/
theorem exV_proved : ∃ (y : Case 193 (ZMod 193) (ZMod 193)) (π : BProof (ZMod 193) (ZMod 193)),
    Honest 6 125 rnd193 (5 : ZMod 193) (1 : ZMod 193) (1 : ZMod 193) 10 y.circ y.final y.key y.inputs ∧
    y.circ.ultra = some 1 ∧ y.inputs = [3, 5] ∧ y.final.dom.size = 8 ∧
    batchProve 5 (newDomain 6 125) exOracle none exMasks (fun i => i + 1) [y.final.arith] [y.key] = .ok π ∧
    π.quot = [167, 109, 113, 75, 64, 106] := by
  have h : okAnd (finalize' 6 125 rnd193 exV) (fun f =>
      okAnd (preprocess (p := 193) rnd193 (genSrs (5 : ZMod 193) (1 : ZMod 193) (1 : ZMod 193) 10 1) f) fun pk =>
      okAnd (batchProve 5 (newDomain 6 125) exOracle none exMasks (fun i => i + 1) [f.arith] [pk]) fun π =>
        decide (f.dom.size = 8 ∧ π.quot = [167, 109, 113, 75, 64, 106])) = true := by
    decide +kernel
  obtain ⟨f, hf, h⟩ := okAnd_elim h
  obtain ⟨pk, hpk, h⟩ := okAnd_elim h
  obtain ⟨π, hπ, h⟩ := okAnd_elim h
  rw [decide_eq_true_iff] at h
  refine ⟨⟨exV, f, pk, [3, 5]⟩, π, ⟨built_exV, by rw [finalize_eq]; exact hf, ?_, by simp only [h.1]; norm_num, hpk,
    show publicInput exV = .ok [3, 5] by decide +kernel,
    show checkSat exV [3, 5] = .ok () by decide +kernel⟩, rfl, rfl, h.1, hπ, h.2⟩
  intro k hk
  obtain rfl : 1 = k := Option.some.inj hk
  refine ⟨by norm_num, by norm_num, by norm_num, ?_⟩
  simp only [h.1]
  exact placed_exV

/-- the proof is accepted -/
example : ∃ (y : Case 193 (ZMod 193) (ZMod 193)) (π : BProof (ZMod 193) (ZMod 193)),
    π.quot = [167, 109, 113, 75, 64, 106] ∧
    verifyBatch (newDomain 6 125) (LinearMap.mul (ZMod 193) (ZMod 193)) (fun _ => 1) (challenges exOracle none)
      [y.key.vk] [[3, 5]] π = .ok true := by
  obtain ⟨y, π, H, -, hin, -, hπ, hq⟩ := exV_proved
  have := C74_honest (L := [y]) prim125 (by simpa using H) (LinearMap.mul (ZMod 193) (ZMod 193)) (by simp)
    (fun _ => 1) (gen := 5) (by decide +kernel) hπ
  rw [← hin]
  exact ⟨y, π, hq, this⟩

/-- the circuit without gates has two rows, and no proof -/
example : ∃ y : Case 97 (ZMod 97) (ZMod 97),
    Honest 5 28 rnd97 (5 : ZMod 97) (1 : ZMod 97) (1 : ZMod 97) 10 y.circ y.final y.key y.inputs ∧
    y.final.dom.size = 2 ∧
    ∀ oracle masks, ∃ e, batchProve (5 : ZMod 97) (newDomain 5 28) oracle none masks (fun i => i + 1)
      [y.final.arith] [y.key] =
      .error e := by
  have h : okAnd (finalize' 5 28 rnd97 (Circ.new 97 none)) (fun f =>
      okAnd (preprocess (p := 97) rnd97 (genSrs (5 : ZMod 97) (1 : ZMod 97) (1 : ZMod 97) 10 1) f) fun pk =>
        decide (f.dom.size = 2)) = true := by
    decide +kernel
  obtain ⟨f, hf, h⟩ := okAnd_elim h
  obtain ⟨pk, hpk, h⟩ := okAnd_elim h
  rw [decide_eq_true_iff] at h
  have H : Honest 5 28 rnd97 (5 : ZMod 97) (1 : ZMod 97) (1 : ZMod 97) 10 (Circ.new 97 none) f pk [] :=
    ⟨Built.new none, by rw [finalize_eq]; exact hf, fun k hk => (by cases hk), by omega, hpk,
      by decide +kernel, by decide +kernel⟩
  refine ⟨⟨_, f, pk, []⟩, H, h, fun oracle masks => ?_⟩
  exact C74_two_rows_counterexample (L := [⟨_, f, pk, []⟩]) prim28
    (fun y hy => by rw [List.mem_singleton] at hy; subst hy; exact H) (by simpa using h)
    (by decide +kernel) oracle none masks _

end Verif.Props.Prover
