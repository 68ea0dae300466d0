import Verif.Plonk.Snark
import Verif.Props.Prover

/-!
# C92: single proofs, and several of them verified together
-/

set_option linter.unusedSectionVars false

namespace Verif.Props.Snark

open Verif.Circuit Verif.Pcs Verif.Plonk
open Verif.Props.Finalize Verif.Props.Verifier Verif.Props.EndToEnd Verif.Props.CopyConstraints Verif.Props.Prover

section
variable {F G G2 GT : Type} [Field F] [DecidableEq F] [AddCommGroup G] [Module F G] [DecidableEq G]
  [AddCommGroup G2] [Module F G2] [AddCommGroup GT] [Module F GT] [DecidableEq GT]

/-! ## Specification -/

/-- the answer of `verify` for one proof -/
def answer (newDom : ℕ → Option (Domain F)) (e : G →ₗ[F] G2 →ₗ[F] GT) (hash : List F → F)
    (oracle : List (Call F G G2) → F) (y : Item F G G2) : Except VErr Bool :=
  Plonk.verify newDom e hash oracle y.vk y.input y.proof y.extra

/-- the answer of `batch_verify` for a list of proofs -/
def answers (newDom : ℕ → Option (Domain F)) (e : G →ₗ[F] G2 →ₗ[F] GT) (hash : List F → F)
    (oracle : List (Call F G G2) → F) (L : List (Item F G G2)) : Except VErr Bool :=
  Plonk.batchVerify newDom e hash oracle (L.map (·.vk)) (L.map (·.input)) (L.map (·.proof)) (L.map (·.extra))

/-- the last challenge of a proof, which depends on its key, public input, message and all parts of the proof -/
def lastChallenge (oracle : List (Call F G G2) → F) (y : Item F G G2) : F :=
  (challenges oracle y.extra [y.vk] [y.input] y.proof.toBatch).u

/-! ## Lemmas -/

theorem items_map : ∀ L : List (Item F G G2),
    items (L.map (·.vk)) (L.map (·.input)) (L.map (·.proof)) (L.map (·.extra)) = L
  | [] => rfl
  | y :: L => by simp [items, items_map L]

variable {newDom : ℕ → Option (Domain F)} {e : G →ₗ[F] G2 →ₗ[F] GT} {oracle : List (Call F G G2) → F}

theorem prepareItems_ok : ∀ {L : List (Item F G G2)} {is : List (PcsInfo F G)},
    prepareItems newDom oracle L = .ok is → List.Forall₂ (fun y i => prepareItem newDom oracle y = .ok i) L is
  | [], is, h => by
    obtain rfl : [] = is := Except.ok.inj h
    exact .nil
  | y :: L, is, h => by
    unfold prepareItems at h
    cases hi : prepareItem newDom oracle y with
    | error e => rw [hi] at h; cases h
    | ok i =>
      cases his : prepareItems newDom oracle L with
      | error e => rw [hi, his] at h; cases h
      | ok is' =>
        rw [hi, his] at h
        obtain rfl : i :: is' = is := Except.ok.inj h
        exact .cons hi (prepareItems_ok his)

theorem prepareItems_total : ∀ {L : List (Item F G G2)}, (∀ y ∈ L, ∃ i, prepareItem newDom oracle y = .ok i) →
    ∃ is, prepareItems newDom oracle L = .ok is
  | [], _ => ⟨[], rfl⟩
  | y :: L, h => by
    obtain ⟨i, hi⟩ := h y (by simp)
    obtain ⟨is, his⟩ := prepareItems_total (L := L) fun y hy => h y (by simp [hy])
    exact ⟨i :: is, by unfold prepareItems; rw [hi, his]⟩

theorem answers_eq (hash : List F → F) {y0 : Item F G G2} {L : List (Item F G G2)} :
    answers newDom e hash oracle (y0 :: L) =
      (prepareItems newDom oracle (y0 :: L)).map (batchVerifyOpening e hash y0.vk.openKey) := by
  unfold answers Plonk.batchVerify
  rw [if_neg (by simp)]
  have h := items_map (y0 :: L)
  simp only [List.map_cons] at h ⊢
  rw [h]
  cases prepareItems newDom oracle (y0 :: L) <;> rfl

theorem answer_eq (hash : List F → F) {y : Item F G G2} :
    answer newDom e hash oracle y =
      (prepareItem newDom oracle y).map (fun i => batchVerifyOpening e hash y.vk.openKey [i]) := by
  have := answers_eq (newDom := newDom) (e := e) (oracle := oracle) hash (y0 := y) (L := [])
  refine Eq.trans this ?_
  simp only [prepareItems]
  cases prepareItem newDom oracle y <;> rfl

theorem answer_ok {hash : List F → F} {y : Item F G G2} {b : Bool} :
    answer newDom e hash oracle y = .ok b ↔
      ∃ i, prepareItem newDom oracle y = .ok i ∧ batchVerifyOpening e hash y.vk.openKey [i] = b := by
  rw [answer_eq]
  cases prepareItem newDom oracle y with
  | error e => simp [Except.map]
  | ok i => simp [Except.map]

theorem prepareItem_u {y : Item F G G2} {i : PcsInfo F G} (h : prepareItem newDom oracle y = .ok i) :
    i.u = lastChallenge oracle y := by
  unfold prepareItem at h
  split at h
  · cases h
  unfold prepare at h
  split_ifs at h
  split at h
  · cases h
  · cases h
  simp only at h
  split at h
  · cases h
  split at h
  · cases h
  split at h
  · cases h
  split at h
  · cases h
  obtain rfl := Except.ok.inj h
  rfl

/-! ## Theorems -/

/-- C92: verifying one proof is verifying the batch proof with that single instance. -/
theorem C92_verify (hash : List F → F) (y : Item F G G2) :
    answer newDom e hash oracle y =
      verifyBatch newDom e hash (challenges oracle y.extra) [y.vk] [y.input] y.proof.toBatch := by
  rw [answer_eq]
  unfold prepareItem verifyBatch
  simp only
  cases verifierDomain newDom y.vk.domSize with
  | error e => rfl
  | ok d =>
    simp only
    cases prepare d [y.vk] [y.input] y.proof.toBatch
      (challenges oracle y.extra [y.vk] [y.input] y.proof.toBatch) <;> rfl

/-- C92: the lists must have the same length and may not be empty. -/
theorem C92_lengths (hash : List F → F) (vks : List (VKey F G G2)) (pis : List (List F)) (bs : List (Proof F G))
    (extras : List (Option (List ℕ))) :
    (∃ L : List (Item F G G2), L ≠ [] ∧ vks = L.map (·.vk) ∧ pis = L.map (·.input) ∧ bs = L.map (·.proof) ∧
      extras = L.map (·.extra)) ∨ Plonk.batchVerify newDom e hash oracle vks pis bs extras = .error .parameter := by
  have key : ∀ (bs : List (Proof F G)) (vks : List (VKey F G G2)) (pis : List (List F))
      (extras : List (Option (List ℕ))), pis.length = bs.length → vks.length = bs.length →
      extras.length = bs.length → ∃ L : List (Item F G G2), vks = L.map (·.vk) ∧ pis = L.map (·.input) ∧
        bs = L.map (·.proof) ∧ extras = L.map (·.extra) := by
    intro bs
    induction bs with
    | nil =>
      intro vks pis extras h1 h2 h3
      exact ⟨[], by simpa using h2, by simpa using h1, rfl, by simpa using h3⟩
    | cons b bs ih =>
      intro vks pis extras h1 h2 h3
      obtain _ | ⟨vk, vks⟩ := vks
      · simp at h2
      obtain _ | ⟨pi, pis⟩ := pis
      · simp at h1
      obtain _ | ⟨m, ms⟩ := extras
      · simp at h3
      obtain ⟨L, rfl, rfl, rfl, rfl⟩ := ih vks pis ms (by simpa using h1) (by simpa using h2) (by simpa using h3)
      exact ⟨⟨vk, b, pi, m⟩ :: L, rfl, rfl, rfl, rfl⟩
  by_cases h : pis.length ≠ bs.length ∨ vks.length ≠ bs.length ∨ extras.length ≠ bs.length
  · right
    unfold Plonk.batchVerify
    rw [if_pos h]
  · obtain ⟨L, rfl, rfl, rfl, rfl⟩ := key bs vks pis extras (by tauto) (by tauto) (by tauto)
    obtain _ | ⟨y, L⟩ := L
    · right
      rfl
    · exact .inl ⟨y :: L, by simp, rfl, rfl, rfl, rfl⟩

/-- C92: a list of proofs leads to an error exactly if one of the proofs does. -/
theorem C92_errors (hash hash' : List F → F) {L : List (Item F G G2)} (hL : L ≠ []) :
    (∃ b, answers newDom e hash oracle L = .ok b) ↔ ∀ y ∈ L, ∃ b, answer newDom e hash' oracle y = .ok b := by
  obtain _ | ⟨y0, L⟩ := L
  · exact absurd rfl hL
  rw [answers_eq]
  constructor
  · rintro ⟨b, hb⟩ y hy
    cases h : prepareItems newDom oracle (y0 :: L) with
    | error e => rw [h] at hb; cases hb
    | ok is =>
      obtain ⟨i, hi⟩ : ∃ i, prepareItem newDom oracle y = .ok i := by
        obtain ⟨n, hn, rfl⟩ := List.getElem_of_mem hy
        have h2 := List.forall₂_iff_get.1 (prepareItems_ok h)
        exact ⟨_, h2.2 n hn (by rw [← h2.1]; exact hn)⟩
      exact ⟨_, answer_ok.2 ⟨i, hi, rfl⟩⟩
  · intro h
    obtain ⟨is, his⟩ := prepareItems_total (newDom := newDom) (oracle := oracle) (L := y0 :: L) fun y hy => by
      obtain ⟨b, hb⟩ := h y hy
      obtain ⟨i, hi, -⟩ := answer_ok.1 hb
      exact ⟨i, hi⟩
    rw [his]
    exact ⟨_, rfl⟩

/-- C92: proofs accepted one by one are accepted together, if the keys have the same part of the reference string. -/
theorem C92_complete_partial (hash hash' : List F → F) {L : List (Item F G G2)} (hL : L ≠ []) {k : VerifierParam G G2}
    (hk : ∀ y ∈ L, y.vk.openKey = k) (h : ∀ y ∈ L, answer newDom e hash oracle y = .ok true) :
    answers newDom e hash' oracle L = .ok true := by
  obtain _ | ⟨y0, L⟩ := L
  · exact absurd rfl hL
  obtain ⟨is, his⟩ := prepareItems_total (newDom := newDom) (oracle := oracle) (L := y0 :: L) fun y hy => by
    obtain ⟨i, hi, -⟩ := answer_ok.1 (h y hy)
    exact ⟨i, hi⟩
  rw [answers_eq, his, hk y0 (by simp)]
  refine congrArg Except.ok (C59_batch_complete e hash hash' k is fun i hi => ?_)
  have h2 := List.forall₂_iff_get.1 (prepareItems_ok his)
  obtain ⟨n, hn, rfl⟩ := List.getElem_of_mem hi
  have h3 := h2.2 n (by rw [h2.1]; exact hn) hn
  have hm : (y0 :: L)[n]'(by rw [h2.1]; exact hn) ∈ y0 :: L := List.getElem_mem _
  obtain ⟨i, hi, h4⟩ := answer_ok.1 (h _ hm)
  rw [hk _ hm] at h4
  simp only [List.get_eq_getElem] at h3
  rw [h3] at hi
  rw [Except.ok.inj hi]
  exact h4

/-- C92: for a list of proofs there are fewer values of the combination challenge than proofs for which the list is
accepted although one of the proofs is not.  They do not depend on the function that draws this challenge from the
last challenges of the proofs. -/
theorem C92_sound_partial [Fintype F] (hash : List F → F) {L : List (Item F G G2)} (hL : L ≠ []) {k : VerifierParam G G2}
    (hk : ∀ y ∈ L, y.vk.openKey = k) :
    ∃ bad : Finset F, bad.card < L.length ∧ ∀ hash' : List F → F, hash' (L.map (lastChallenge oracle)) ∉ bad →
      answers newDom e hash' oracle L = .ok true → ∀ y ∈ L, answer newDom e hash oracle y = .ok true := by
  classical
  obtain _ | ⟨y0, L⟩ := L
  · exact absurd rfl hL
  cases his : prepareItems newDom oracle (y0 :: L) with
  | error e =>
    refine ⟨∅, by simp, fun hash' _ h => ?_⟩
    rw [answers_eq, his] at h
    cases h
  | ok is =>
    have h2 := List.forall₂_iff_get.1 (prepareItems_ok his)
    by_cases hall : ∀ y ∈ y0 :: L, answer newDom e hash oracle y = .ok true
    · exact ⟨∅, by simp, fun _ _ _ => hall⟩
    · refine ⟨Finset.univ.filter fun r => batchVerifyOpening e (fun _ => r) k is = true, ?_, ?_⟩
      · by_contra hc
        refine hall fun y hy => ?_
        have h3 := C59_batch_sound e hash k is _ (by rw [← h2.1]; exact not_lt.1 hc)
          (fun r hr => (Finset.mem_filter.1 hr).2)
        obtain ⟨n, hn, rfl⟩ := List.getElem_of_mem hy
        have hn' : n < is.length := by rw [← h2.1]; exact hn
        refine answer_ok.2 ⟨is[n], h2.2 n hn hn', ?_⟩
        rw [hk _ (List.getElem_mem hn)]
        exact h3 _ (List.getElem_mem hn')
      · intro hash' hb h
        rw [answers_eq, his, hk y0 (by simp)] at h
        refine absurd ?_ hb
        have hu : (y0 :: L).map (lastChallenge oracle) = is.map (·.u) := by
          refine List.ext_getElem (by simpa using h2.1) fun n h3 h4 => ?_
          rw [List.getElem_map, List.getElem_map]
          exact (prepareItem_u (h2.2 n (by simpa using h3) (by simpa using h4))).symm
        rw [hu, Finset.mem_filter]
        refine ⟨Finset.mem_univ _, ?_⟩
        have h3 : batchVerifyOpening e hash' k is = true := Except.ok.inj h
        unfold batchVerifyOpening at h3 ⊢
        exact h3

/-! ## The prover -/

/-- a batch proof has as many entries as there are instances -/
theorem proveRuns_lengths {gen : F} {oracle : List (Call F G G2) → F} {extra : Option (List ℕ)} {quotMask : ℕ → F}
    {n nw : ℕ} {ck : ProverParam G} {rs : List (Run F G G2)} {b : BProof F G}
    (h : proveRuns gen newDom oracle extra quotMask n nw ck rs = .ok b) :
    b.wires.length = rs.length ∧ b.prodPerm.length = rs.length ∧ b.evals.length = rs.length ∧
      b.lookups.length = rs.length := by
  unfold proveRuns proveRunsWith at h
  obtain ⟨pis, -, h⟩ := except_bind_ok h
  obtain ⟨⟨d, quot⟩, -, h⟩ := except_bind_ok h
  obtain ⟨r1, h1, h⟩ := except_bind_ok h
  simp only at h
  obtain ⟨r2, h2, h⟩ := except_bind_ok h
  obtain ⟨r3, h3, h⟩ := except_bind_ok h
  obtain ⟨r4, h4, h⟩ := except_bind_ok h
  obtain ⟨q, -, h⟩ := except_bind_ok h
  obtain ⟨ts, -, h⟩ := except_bind_ok h
  obtain ⟨tc, -, h⟩ := except_bind_ok h
  obtain ⟨les, h5, h⟩ := except_bind_ok h
  obtain ⟨lin, -, h⟩ := except_bind_ok h
  obtain ⟨lin', -, h⟩ := except_bind_ok h
  obtain ⟨⟨w, w'⟩, -, h⟩ := except_bind_ok h
  obtain ⟨lks, h6, h⟩ := except_bind_ok h
  have e := (mapM_length' h4).trans ((mapM_length' h3).trans ((mapM_length' h2).trans (mapM_length' h1)))
  have e5 := (mapM_length' h5).trans e
  have e6 := mapM_length' h6
  rw [List.length_zip, e, e5, min_self] at e6
  obtain rfl := Except.ok.inj h
  simp [e, e6]

/-- C92: proving one circuit is proving the batch with that single circuit; nothing of the batch proof is lost, and
taking its first entries never fails. -/
theorem C92_prove {gen : F} {extra : Option (List ℕ)} {mask : Masks F} {quotMask : ℕ → F} {c : Arith F}
    {pk : PKey F G G2} :
    batchProve gen newDom oracle extra (fun _ => mask) quotMask [c] [pk] =
      (prove gen newDom oracle extra mask quotMask c pk).map Proof.toBatch := by
  unfold prove
  cases h : batchProve gen newDom oracle extra (fun _ => mask) quotMask [c] [pk] with
  | error e => rfl
  | ok b =>
    have h' := h
    simp only [batchProve] at h'
    split at h'
    · cases h'
    split at h'
    · cases h'
    split at h'
    · cases h'
    have hl := proveRuns_lengths h'
    simp only [List.length_mapIdx, List.length_zip, List.length_cons, List.length_nil, min_self, zero_add,
      List.length_eq_one_iff] at hl
    obtain ⟨wires, prodPerm, evals, lookups, quot, opening, shifted⟩ := b
    obtain ⟨⟨w, rfl⟩, ⟨z, rfl⟩, ⟨ev, rfl⟩, ⟨l, rfl⟩⟩ := hl
    rfl

end

section
variable {p : ℕ} [Fact p.Prime] {S : ℕ} {root : ZMod p} {rnd : List (ZMod p)}
variable {G G2 GT : Type} [AddCommGroup G] [Module (ZMod p) G] [DecidableEq G]
  [AddCommGroup G2] [Module (ZMod p) G2] [DecidableEq G2]
  [AddCommGroup GT] [Module (ZMod p) GT] [DecidableEq GT]

/-- C92: a proof returned for a satisfied circuit is accepted, for every message bound into the transcript. -/
theorem C92_honest (hroot : IsPrimitiveRoot root (2 ^ S)) {x : ZMod p} {g : G} {h : G2} {m : ℕ} {y : Case p G G2}
    (H : Honest S root rnd x g h m y.circ y.final y.key y.inputs)
    (e : G →ₗ[ZMod p] G2 →ₗ[ZMod p] GT) (he : e g h ≠ 0) (hash : List (ZMod p) → ZMod p)
    {gen : ZMod p} (hgen : gen ≠ 0) {oracle : List (Call (ZMod p) G G2) → ZMod p} {extra : Option (List ℕ)}
    {mask : Masks (ZMod p)} {quotMask : ℕ → ZMod p} {π : Proof (ZMod p) G}
    (hπ : prove gen (newDomain S root) oracle extra mask quotMask y.final.arith y.key = .ok π) :
    Plonk.verify (newDomain S root) e hash oracle y.key.vk y.inputs π extra = .ok true := by
  refine (C92_verify (newDom := newDomain S root) (e := e) (oracle := oracle) hash
    ⟨y.key.vk, π, y.inputs, extra⟩).trans ?_
  refine C74_honest (L := [y]) hroot (by simpa using H) e he hash hgen (masks := fun _ => mask)
    (quotMask := quotMask) (extra := extra) ?_
  show batchProve gen (newDomain S root) oracle extra (fun _ => mask) quotMask [y.final.arith] [y.key] = _
  rw [C92_prove, hπ]
  rfl

/-- C92: proofs for satisfied circuits, of any sizes and kinds and with any messages, are accepted together if their
keys come from one reference string. -/
theorem C92_honest_list (hroot : IsPrimitiveRoot root (2 ^ S)) {x : ZMod p} {g : G} {h : G2}
    (e : G →ₗ[ZMod p] G2 →ₗ[ZMod p] GT) (he : e g h ≠ 0) (hash : List (ZMod p) → ZMod p)
    {gen : ZMod p} (hgen : gen ≠ 0) {oracle : List (Call (ZMod p) G G2) → ZMod p}
    {L : List (Item (ZMod p) G G2)} (hL : L ≠ [])
    (H : ∀ i ∈ L, ∃ (m : ℕ) (y : Case p G G2) (mask : Masks (ZMod p)) (quotMask : ℕ → ZMod p),
      Honest S root rnd x g h m y.circ y.final y.key y.inputs ∧
      prove gen (newDomain S root) oracle i.extra mask quotMask y.final.arith y.key = .ok i.proof ∧
      i.vk = y.key.vk ∧ i.input = y.inputs) :
    answers (newDomain S root) e hash oracle L = .ok true := by
  refine C92_complete_partial hash hash hL (k := openKey x g h) (fun i hi => ?_) (fun i hi => ?_)
  · obtain ⟨m, y, mask, quotMask, hy, hπ, hv, -⟩ := H i hi
    rw [hv]
    have hb : batchProve gen (newDomain S root) oracle i.extra (fun _ => mask) quotMask ([y].map (·.final.arith))
        ([y].map (·.key)) = .ok i.proof.toBatch := by
      show batchProve gen (newDomain S root) oracle i.extra (fun _ => mask) quotMask [y.final.arith] [y.key] = _
      rw [C92_prove, hπ]
      rfl
    obtain ⟨y0, -, Is, ch, τ, ts, W, W', -, -, hvk, -⟩ := proved hroot (L := [y]) (by simpa using hy) hgen hb
    obtain _ | ⟨I, _ | ⟨I', Is⟩⟩ := Is
    · simp at hvk
    · simp only [List.map_cons, List.map_nil, List.cons.injEq, and_true] at hvk
      rw [hvk]
      rfl
    · simp at hvk
  · obtain ⟨m, y, mask, quotMask, hy, hπ, hv, hin⟩ := H i hi
    unfold answer
    rw [hv, hin]
    exact C92_honest hroot hy e he hash hgen hπ

end

/-! ## Examples, and keys of different reference strings -/

/-- the pairing of the examples -/
abbrev exPair : ZMod 193 →ₗ[ZMod 193] ZMod 193 →ₗ[ZMod 193] ZMod 193 := LinearMap.mul (ZMod 193) (ZMod 193)

/-- a key for the reference string with secret `x`, and a proof -/
def exRun (x : ZMod 193) (f : FCirc 193)
    (k : PKey (ZMod 193) (ZMod 193) (ZMod 193) → Proof (ZMod 193) (ZMod 193) → Bool) : Bool :=
  okAnd (preprocess (p := 193) rnd193 (genSrs x (1 : ZMod 193) (1 : ZMod 193) 10 1) f) fun pk =>
  okAnd (prove 5 (newDomain 6 125) exOracle none (exMasks 0) (fun i => i + 1) f.arith pk) fun π => k pk π

theorem exHonest {x : ZMod 193} {f : FCirc 193} {pk : PKey (ZMod 193) (ZMod 193) (ZMod 193)}
    (hf : finalize' 6 125 rnd193 exV = .ok f) (h8 : f.dom.size = 8)
    (hpk : preprocess (p := 193) rnd193 (genSrs x (1 : ZMod 193) (1 : ZMod 193) 10 1) f = .ok pk) :
    Honest 6 125 rnd193 x (1 : ZMod 193) (1 : ZMod 193) 10 exV f pk [3, 5] := by
  refine ⟨built_exV, by rw [finalize_eq]; exact hf, ?_, by simp only [h8]; norm_num, hpk,
    show publicInput exV = .ok [3, 5] by decide +kernel, show checkSat exV [3, 5] = .ok () by decide +kernel⟩
  intro k hk
  obtain rfl : 1 = k := Option.some.inj hk
  refine ⟨by norm_num, by norm_num, by norm_num, ?_⟩
  simp only [h8]
  exact placed_exV

/-- two keys of one circuit for different reference strings, with a proof for each, and a third proof -/
theorem exTwo : okAnd (finalize' 6 125 rnd193 exV) (fun f => exRun 5 f fun pk π => exRun 7 f fun pk' π' =>
    decide (f.dom.size = 8) &&
    okAnd (prepareItems (newDomain 6 125) exOracle
      [⟨pk.vk, π, [3, 5], none⟩, ⟨pk'.vk, π', [3, 5], none⟩, ⟨pk'.vk, { π' with opening := 150 }, [3, 5], none⟩])
      fun is => match is with
        | [i, j, k] => batchVerifyOpening exPair (fun _ => 0) pk.vk.openKey [i] &&
            batchVerifyOpening exPair (fun _ => 0) pk.vk.openKey [k] &&
            !batchVerifyOpening exPair (fun _ => 0) pk'.vk.openKey [k] &&
            !batchVerifyOpening exPair (fun l => l.sum + 1) pk.vk.openKey [i, j]
        | _ => false) = true := by
  decide +kernel

/-- the keys and proofs of `exTwo` -/
theorem exTwo_elim : ∃ (f : FCirc 193) (pk pk' : PKey (ZMod 193) (ZMod 193) (ZMod 193))
    (π π' : Proof (ZMod 193) (ZMod 193)) (i j k : PcsInfo (ZMod 193) (ZMod 193)),
    Honest 6 125 rnd193 5 (1 : ZMod 193) (1 : ZMod 193) 10 exV f pk [3, 5] ∧
    Honest 6 125 rnd193 7 (1 : ZMod 193) (1 : ZMod 193) 10 exV f pk' [3, 5] ∧
    prove 5 (newDomain 6 125) exOracle none (exMasks 0) (fun i => i + 1) f.arith pk = .ok π ∧
    prove 5 (newDomain 6 125) exOracle none (exMasks 0) (fun i => i + 1) f.arith pk' = .ok π' ∧
    prepareItem (newDomain 6 125) exOracle ⟨pk.vk, π, [3, 5], none⟩ = .ok i ∧
    prepareItem (newDomain 6 125) exOracle ⟨pk'.vk, π', [3, 5], none⟩ = .ok j ∧
    prepareItem (newDomain 6 125) exOracle ⟨pk'.vk, { π' with opening := 150 }, [3, 5], none⟩ = .ok k ∧
    batchVerifyOpening exPair (fun _ => 0) pk.vk.openKey [i] = true ∧
    batchVerifyOpening exPair (fun _ => 0) pk.vk.openKey [k] = true ∧
    batchVerifyOpening exPair (fun _ => 0) pk'.vk.openKey [k] = false ∧
    batchVerifyOpening exPair (fun l => l.sum + 1) pk.vk.openKey [i, j] = false := by
  obtain ⟨f, hf, h⟩ := okAnd_elim exTwo
  obtain ⟨pk, hpk, h⟩ := okAnd_elim h
  obtain ⟨π, hπ, h⟩ := okAnd_elim h
  obtain ⟨pk', hpk', h⟩ := okAnd_elim h
  obtain ⟨π', hπ', h⟩ := okAnd_elim h
  rw [Bool.and_eq_true, decide_eq_true_iff] at h
  obtain ⟨h8, h⟩ := h
  obtain ⟨is, his, h⟩ := okAnd_elim h
  have h2 := prepareItems_ok his
  cases h2 with
  | cons a1 h2 =>
    cases h2 with
    | cons a2 h2 =>
      cases h2 with
      | cons a3 h2 =>
        cases h2
        simp only [Bool.and_eq_true, Bool.not_eq_true'] at h
        exact ⟨f, pk, pk', π, π', _, _, _, exHonest hf h8 hpk, exHonest hf h8 hpk', hπ, hπ', a1, a2, a3,
          h.1.1.1, h.1.1.2, h.1.2, h.2⟩

/-- C92 fails for keys of different reference strings: `batch_verify` uses the reference string of the first key for
all proofs, so two proofs, each accepted on its own, are rejected together. -/
theorem C92_reference_string_counterexample : ∃ y y' : Item (ZMod 193) (ZMod 193) (ZMod 193),
    answer (newDomain 6 125) exPair (fun l => l.sum + 1) exOracle y = .ok true ∧
    answer (newDomain 6 125) exPair (fun l => l.sum + 1) exOracle y' = .ok true ∧
    answers (newDomain 6 125) exPair (fun l => l.sum + 1) exOracle [y, y'] = .ok false := by
  obtain ⟨f, pk, pk', π, π', i, j, k, H, H', hπ, hπ', a1, a2, -, -, -, -, h⟩ := exTwo_elim
  refine ⟨⟨pk.vk, π, [3, 5], none⟩, ⟨pk'.vk, π', [3, 5], none⟩,
    C92_honest (y := ⟨exV, f, pk, [3, 5]⟩) prim125 H exPair (by simp) _ (by decide) hπ,
    C92_honest (y := ⟨exV, f, pk', [3, 5]⟩) prim125 H' exPair (by simp) _ (by decide) hπ', ?_⟩
  rw [answers_eq]
  simp only [prepareItems, a1, a2, Except.map]
  rw [h]

/-- and a proof that is rejected on its own is accepted behind another one, for every combination challenge. -/
theorem C92_reference_string_accepted_counterexample : ∃ y y' : Item (ZMod 193) (ZMod 193) (ZMod 193),
    answer (newDomain 6 125) exPair (fun _ => 0) exOracle y = .ok true ∧
    answer (newDomain 6 125) exPair (fun _ => 0) exOracle y' = .ok false ∧
    ∀ hash, answers (newDomain 6 125) exPair hash exOracle [y, y'] = .ok true := by
  obtain ⟨f, pk, pk', π, π', i, j, k, H, -, hπ, -, a1, -, a3, h1, h2, h3, -⟩ := exTwo_elim
  refine ⟨⟨pk.vk, π, [3, 5], none⟩, ⟨pk'.vk, { π' with opening := 150 }, [3, 5], none⟩,
    answer_ok.2 ⟨i, a1, h1⟩, answer_ok.2 ⟨k, a3, h3⟩, fun hash => ?_⟩
  rw [answers_eq]
  simp only [prepareItems, a1, a3, Except.map]
  refine congrArg Except.ok (C59_batch_complete exPair (fun _ => 0) hash _ [i, k] fun l hl => ?_)
  simp only [List.mem_cons, List.not_mem_nil, or_false] at hl
  obtain rfl | rfl := hl
  · exact h1
  · exact h2

/-- honest proofs of an UltraPlonk circuit for one reference string, accepted alone and together; if accepted together
for a good challenge they are accepted alone -/
example : ∃ y : Item (ZMod 193) (ZMod 193) (ZMod 193),
    answer (newDomain 6 125) exPair (fun _ => 0) exOracle y = .ok true ∧
    answers (newDomain 6 125) exPair (fun l => l.sum) exOracle [y, y, y] = .ok true ∧
    (∃ bad : Finset (ZMod 193), bad.card < 3 ∧ ∀ hash' : List (ZMod 193) → ZMod 193,
      hash' ([y, y, y].map (lastChallenge exOracle)) ∉ bad → answers (newDomain 6 125) exPair hash' exOracle [y, y, y] = .ok true →
      ∀ z ∈ [y, y, y], answer (newDomain 6 125) exPair (fun _ => 0) exOracle z = .ok true) := by
  obtain ⟨f, pk, -, π, -, -, -, -, H, -, hπ, -⟩ := exTwo_elim
  refine ⟨⟨pk.vk, π, [3, 5], none⟩,
    C92_honest (y := ⟨exV, f, pk, [3, 5]⟩) prim125 H exPair (by simp) _ (by decide) hπ,
    C92_honest_list (rnd := rnd193) (x := 5) (g := 1) (h := 1) prim125 exPair (by simp) _ (gen := 5) (by decide)
      (by simp) (fun i hi => ?_),
    C92_sound_partial (L := [⟨pk.vk, π, [3, 5], none⟩, ⟨pk.vk, π, [3, 5], none⟩, ⟨pk.vk, π, [3, 5], none⟩])
      (k := pk.vk.openKey) _ (by simp) (by simp)⟩
  simp only [List.mem_cons, List.not_mem_nil, or_false, or_self] at hi
  subst hi
  exact ⟨10, ⟨exV, f, pk, [3, 5]⟩, _, _, H, hπ, rfl, rfl⟩

end Verif.Props.Snark
