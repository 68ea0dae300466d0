import Verif.Plonk.BatchArgProve
import Verif.Plonk.ProverMerged
import Verif.Props.Prover

/-!
# C84: the batch argument

Circuits of type A and type B are merged in pairs, one proof is made for all merged circuits, and the verifier computes
two points from the sums of the keys, with a blinding factor, that are paired later.
-/

set_option linter.unusedSectionVars false

namespace Verif.Props.BatchArg

open Verif.Circuit Verif.Pcs Verif.Plonk Polynomial
open Verif.Props.Finalize Verif.Props.Verifier Verif.Props.EndToEnd Verif.Props.Merge Verif.Props.Prover
open Verif.Props.CopyConstraints (SlotVar width)

section
variable {F G G2 GT : Type} [Field F] [DecidableEq F] [AddCommGroup G] [Module F G] [DecidableEq G]
  [AddCommGroup G2] [Module F G2] [AddCommGroup GT] [Module F GT] [DecidableEq GT]

/-- C84: computing the two points with any blinding factor and pairing them gives what verifying the proof at once gives
with the public inputs twice, if the second point is blinded with the secret multiple of the generator. -/
theorem C84_decide (newDom : ℕ → Option (Domain F)) (e : G →ₗ[F] G2 →ₗ[F] GT) (hash : List F → F)
    (chal : List (VKey F G G2) → List (List F) → BProof F G → Chal F) {vks : List (VKey F G G2)} {k : VerifierParam G G2}
    (hk : ∀ vk ∈ vks.head?, vk.openKey = k) {βg : G} (hβ : e k.g k.betaH = e βg k.h) (pi : List F) (b : BProof F G)
    (blind : F) (r : Bool) :
    (∃ P, partialVerify newDom chal βg k.g vks pi b blind = .ok P ∧ decidePoints e k P.1 P.2 = r) ↔
      verifyBatch newDom e hash chal vks (List.replicate vks.length (pi ++ pi)) b = .ok r := by
  have hdec : ∀ x : PcsInfo F G, decidePoints e k (openA x + blind • k.g) (openB x k.g + blind • βg) =
      batchVerifyOpening e hash k [x] := by
    intro x
    rw [Bool.eq_iff_iff, batch_single]
    unfold decidePoints
    rw [decide_eq_true_iff, map_neg, LinearMap.neg_apply, ← sub_eq_add_neg, sub_eq_zero]
    simp only [map_add, map_smul, LinearMap.add_apply, LinearMap.smul_apply, hβ, add_left_inj]
  cases vks with
  | nil => simp [partialVerify, verifyBatch]
  | cons vk rest =>
    obtain rfl : vk.openKey = k := hk vk rfl
    simp only [partialVerify_ok]
    unfold verifyBatch verifierDomain
    constructor
    · rintro ⟨P, ⟨d, x, ⟨vk', hvk, hd⟩, hx, rfl⟩, hr⟩
      obtain rfl : vk = vk' := by simpa using hvk
      simp only [hd, hx]
      rw [← hr, ← hdec]
    · intro h
      simp only at h
      cases hd : newDom vk.domSize with
      | none => rw [hd] at h; cases h
      | some d =>
        rw [hd] at h
        simp only at h
        split at h
        · cases h
        · rename_i x hx
          refine ⟨_, ⟨d, x, ⟨vk, rfl, hd⟩, hx, rfl⟩, ?_⟩
          rw [hdec]
          exact Except.ok.inj h

/-- C84: the wrong multiple of the generator is not accepted: if the second point is blinded with another point, the
check that passes without blinding fails with any blinding factor other than zero. -/
theorem C84_wrong_beta (newDom : ℕ → Option (Domain F)) (e : G →ₗ[F] G2 →ₗ[F] GT)
    (chal : List (VKey F G G2) → List (List F) → BProof F G → Chal F) {vks : List (VKey F G G2)} {k : VerifierParam G G2}
    {βg : G} (hβ : e k.g k.betaH ≠ e βg k.h) (pi : List F) (b : BProof F G) {blind : F} (h0 : blind ≠ 0) {P Q : G × G}
    (hP : partialVerify newDom chal βg k.g vks pi b 0 = .ok P) (hQ : partialVerify newDom chal βg k.g vks pi b blind = .ok Q)
    (h : decidePoints e k P.1 P.2 = true) : decidePoints e k Q.1 Q.2 = false := by
  obtain ⟨d, x, ⟨vk, hvk, hd⟩, hx, rfl⟩ := partialVerify_ok.1 hP
  obtain ⟨d', x', ⟨vk', hvk', hd'⟩, hx', rfl⟩ := partialVerify_ok.1 hQ
  obtain rfl : vk = vk' := Option.some.inj (hvk.symm.trans hvk')
  obtain rfl : d = d' := Option.some.inj (hd.symm.trans hd')
  obtain rfl : x = x' := Except.ok.inj (hx.symm.trans hx')
  unfold decidePoints at h ⊢
  rw [decide_eq_true_iff, map_neg, LinearMap.neg_apply, ← sub_eq_add_neg, sub_eq_zero] at h
  rw [decide_eq_false_iff_not, map_neg, LinearMap.neg_apply, ← sub_eq_add_neg, sub_eq_zero]
  simp only [map_add, map_smul, LinearMap.add_apply, LinearMap.smul_apply, zero_smul, add_zero] at h ⊢
  rw [h, add_right_inj]
  exact fun h' => hβ (smul_right_injective _ h0 h')

end

section
variable {p : ℕ} [Fact p.Prime] {S : ℕ} {root : ZMod p} {rnd : List (ZMod p)} {c1 c2 : Circ p} {a b f : FCirc p}
variable {G G2 GT : Type} [AddCommGroup G] [Module (ZMod p) G] [DecidableEq G]
  [AddCommGroup G2] [Module (ZMod p) G2] [DecidableEq G2]
  [AddCommGroup GT] [Module (ZMod p) GT] [DecidableEq GT]

/-- C84: merging the keys of a circuit of type A and a circuit of type B gives the key of the merged circuit, marked as
merged, whatever the reference string. -/
theorem C84_keys (h : Pair S root rnd c1 c2 a b) (hpos : c1.pubIds ≠ []) (hf : merge a b = .ok f) {srs : Srs G G2}
    {ka kb : PKey (ZMod p) G G2} (ha : preprocess rnd srs a = .ok ka) (hb : preprocess rnd srs b = .ok kb) :
    ∃ k, preprocess rnd srs f = .ok k ∧ mergePk ka kb = .ok { k with vk := { k.vk with merged := true } } ∧
      mergeVk ka.vk kb.vk = .ok { k.vk with merged := true } := by
  obtain ⟨k, h1, h2⟩ := merged_key h hpos hf ha hb
  refine ⟨k, h1, h2, ?_⟩
  unfold mergePk at h2
  split_ifs at h2
  split at h2
  · cases h2
  · rename_i vk hvk
    rw [hvk]
    have := congrArg PKey.vk (Except.ok.inj h2)
    simp only at this
    rw [this]

/-! ## Honest provers -/

/-- an instance that is set up from a circuit with the secret `x` and satisfied with the public inputs -/
structure Ready (S : ℕ) (root : ZMod p) (rnd : List (ZMod p)) (x : ZMod p) (g : G) (h : G2) (m : ℕ) (ty : MergeType)
    (pi : List (ZMod p)) (c : Circ p) (y : BInstance p G G2) : Prop where
  built : Built c
  setup : setupInstance S root rnd (genSrs x g h m 1) c ty = .ok y
  size : y.circ.dom.size + 2 ≤ m
  pub : publicInput c = .ok pi
  sat : checkSat c pi = .ok ()

theorem setup_ok {srs : Srs G G2} {c : Circ p} {ty : MergeType} {y : BInstance p G G2}
    (h : setupInstance S root rnd srs c ty = .ok y) :
    finalizeMergeable ty S root rnd c = .ok y.circ ∧ preprocess rnd srs y.circ = .ok y.key := by
  unfold setupInstance at h
  split at h
  · cases h
  · rename_i f hf
    split at h
    · cases h
    · rename_i k hk
      obtain rfl := Except.ok.inj h
      exact ⟨hf, hk⟩

theorem mergePk_vk {ka kb k : PKey (ZMod p) G G2} (h : mergePk ka kb = .ok k) : mergeVk ka.vk kb.vk = .ok k.vk := by
  unfold mergePk at h
  split_ifs at h
  split at h
  · cases h
  · rename_i vk hvk
    rw [hvk, ← Except.ok.inj h]

/-- two instances whose circuits are merged -/
theorem ready_merged {x : ZMod p} {g : G} {h : G2} {m : ℕ} {pi : List (ZMod p)} {ya yb : BInstance p G G2}
    (ha : Ready S root rnd x g h m .a pi c1 ya) (hb : Ready S root rnd x g h m .b pi c2 yb)
    (hf : merge ya.circ yb.circ = .ok f) {k : PKey (ZMod p) G G2} (hk : mergePk ya.key yb.key = .ok k) :
    MHonest S root rnd x g h m c1 c2 ya.circ yb.circ ya.key yb.key f k pi pi := by
  obtain ⟨a1, a2⟩ := setup_ok ha.setup
  obtain ⟨b1, b2⟩ := setup_ok hb.setup
  have s1 := (checkSat_ok ha.built.ok.wf pi).1 ha.sat
  have s2 := (checkSat_ok hb.built.ok.wf pi).1 hb.sat
  have hsize : ya.circ.dom.size = yb.circ.dom.size := by
    by_contra hne
    unfold merge at hf
    split_ifs at hf
  have hP : Pair S root rnd c1 c2 ya.circ yb.circ := ⟨ha.built, hb.built, a1, b1, hsize, s1.len.symm.trans s2.len⟩
  have hpos : c1.pubIds ≠ [] := fun h0 => by
    rw [C27_no_inputs_panics hP h0] at hf
    cases hf
  refine ⟨hP, hpos, hf, ?_, a2, b2, hk, ha.pub, hb.pub, ha.sat, hb.sat⟩
  rw [← (pair_common hP hpos hf).1]
  exact ha.size

theorem merge_lists {x : ZMod p} {g : G} {h : G2} {m : ℕ} {pi : List (ZMod p)} :
    ∀ {as bs : List (BInstance p G G2)}, as.length = bs.length →
      (∀ y ∈ as, ∃ c, Ready S root rnd x g h m .a pi c y) → (∀ y ∈ bs, ∃ c, Ready S root rnd x g h m .b pi c y) →
      ∀ {ks : List (PKey (ZMod p) G G2)} {fs : List (FCirc p)}, mergeKeys (as.zip bs) = .ok ks →
        mergeCircs (as.zip bs) = .ok fs →
      ∃ L : List (Case p G G2), L.map (·.final) = fs ∧ L.map (·.key) = ks ∧ L.map (·.inputs) = List.replicate as.length (pi ++ pi) ∧
        mergeVks ((as.map (·.key.vk)).zip (bs.map (·.key.vk))) = .ok (L.map (·.key.vk)) ∧
        ∀ y ∈ L, ∃ c1 c2 a b ka kb, MHonest S root rnd x g h m c1 c2 a b ka kb y.final y.key pi pi ∧
          y.inputs = pi ++ pi
  | [], [], _, _, _, ks, fs, hk, hf => by
    obtain rfl : [] = ks := Except.ok.inj hk
    obtain rfl : [] = fs := Except.ok.inj hf
    exact ⟨[], rfl, rfl, rfl, rfl, by simp⟩
  | ya :: as, yb :: bs, hl, ha, hb, ks, fs, hk, hf => by
    rw [List.zip_cons_cons] at hk hf
    unfold mergeKeys at hk
    unfold mergeCircs at hf
    split at hk
    · cases hk
    rename_i k hk1
    split at hk
    · cases hk
    rename_i ks' hk2
    obtain rfl := Except.ok.inj hk
    split at hf
    · cases hf
    rename_i f hf1
    split at hf
    · cases hf
    rename_i fs' hf2
    obtain rfl := Except.ok.inj hf
    obtain ⟨c1, hA⟩ := ha ya (by simp)
    obtain ⟨c2, hB⟩ := hb yb (by simp)
    have H := ready_merged hA hB hf1 hk1
    obtain ⟨L, l1, l2, l3, l4, l5⟩ := merge_lists (by simpa using hl) (fun y hy => ha y (by simp [hy]))
      (fun y hy => hb y (by simp [hy])) hk2 hf2
    refine ⟨⟨c1, f, k, pi ++ pi⟩ :: L, by simp [l1], by simp [l2], by simp [l3, List.replicate_succ], ?_, ?_⟩
    · simp only [List.map_cons, List.zip_cons_cons, mergeVks]
      rw [mergePk_vk hk1]
      simp only
      rw [l4]
    · intro y hy
      rcases List.mem_cons.1 hy with rfl | hy
      · exact ⟨_, _, _, _, _, _, H, rfl⟩
      · exact l5 y hy

/-- C84: whenever the batch argument returns a proof for instances that share their public inputs, the keys can be
aggregated, and the points computed from the proof with any blinding factor are accepted. -/
theorem C84_honest (hroot : IsPrimitiveRoot root (2 ^ S)) {x : ZMod p} {g : G} {h : G2} {m : ℕ} {pi : List (ZMod p)}
    {as bs : List (BInstance p G G2)} (ha : ∀ y ∈ as, ∃ c, Ready S root rnd x g h m .a pi c y)
    (hb : ∀ y ∈ bs, ∃ c, Ready S root rnd x g h m .b pi c y)
    (e : G →ₗ[ZMod p] G2 →ₗ[ZMod p] GT) (he : e g h ≠ 0)
    {gen : ZMod p} (hgen : gen ≠ 0) {oracle : List (Call (ZMod p) G G2) → ZMod p}
    {masks : ℕ → Masks (ZMod p)} {quotMask : ℕ → ZMod p} {π : BProof (ZMod p) G}
    (hπ : argProve gen (newDomain S root) oracle masks quotMask as bs = .ok π) :
    ∃ vks, aggregateVks (as.map (·.key.vk)) (bs.map (·.key.vk)) = .ok vks ∧ ∀ blind, ∃ P,
      partialVerify (newDomain S root) (challenges oracle none) (x • g) g vks pi π blind = .ok P ∧
        decidePoints e (openKey x g h) P.1 P.2 = true := by
  unfold argProve at hπ
  split_ifs at hπ with hl
  rw [not_not] at hl
  split at hπ
  · cases hπ
  rename_i ks hks
  split at hπ
  · cases hπ
  rename_i fs hfs
  obtain ⟨L, l1, l2, l3, l4, l5⟩ := merge_lists hl ha hb hks hfs
  have H : ∀ y ∈ L, Provable S root x g h y.final y.key y.inputs := by
    intro y hy
    obtain ⟨c1, c2, a, b, ka, kb, hM, hi⟩ := l5 y hy
    rw [hi]
    exact hM.provable hroot
  have hacc := accepted hroot H e he (fun _ => 0) hgen (extra := none) (oracle := oracle) (masks := masks)
    (quotMask := quotMask) (π := π) (by rw [← hπ, ← l1, ← l2, List.map_map]; rfl)
  refine ⟨L.map (·.key.vk), ?_, fun blind => ?_⟩
  · unfold aggregateVks
    rw [if_neg (by simp [hl])]
    exact l4
  have hlen : (L.map (·.key.vk)).length = as.length := by
    have := congrArg List.length l3
    simpa using this
  refine (C84_decide (newDomain S root) e (fun _ => 0) (challenges oracle none) (k := openKey x g h) ?_ ?_ pi π blind
    true).2 ?_
  · intro vk hvk
    have := List.mem_of_mem_head? hvk
    obtain ⟨y, hy, rfl⟩ := List.mem_map.1 this
    obtain ⟨c1, c2, a, b, ka, kb, hM, -⟩ := l5 y hy
    have s1 := (checkSat_ok hM.pair.built1.ok.wf pi).1 hM.sat1
    have s2 := (checkSat_ok hM.pair.built2.ok.wf pi).1 hM.sat2
    obtain ⟨I, hI, -⟩ := merged_inst hroot hM.pair hM.pos hM.merged s1.len s2.len
    rw [(merged_pk hroot hM.pair hM.pos hM.merged hM.size hM.pre1 hM.pre2 hM.key hI).1]
    rfl
  · show e g (x • h) = e (x • g) h
    simp
  · rw [hlen, ← l3]
    exact hacc

/-! ## Soundness -/

/-- a batch of pairs of circuits with shared public inputs, over one domain -/
structure MBatch (S : ℕ) (root : ZMod p) (rnd : List (ZMod p)) (m : ℕ) (d : Domain (ZMod p)) (c1 c2 : ℕ → Circ p)
    (a b f : ℕ → FCirc p) (pi : List (ZMod p)) (I : ℕ → Inst (ZMod p)) : Prop where
  pos : m ≠ 0
  prim : IsPrimitiveRoot root (2 ^ S)
  pair : ∀ i < m, Pair S root rnd (c1 i) (c2 i) (a i) (b i)
  pub : ∀ i < m, (c1 i).pubIds.length = pi.length
  some : pi ≠ []
  merged : ∀ i < m, merge (a i) (b i) = .ok (f i)
  dom : ∀ i < m, (f i).dom = d
  key : ∀ i < m, KeyOf (f i) (I i) true
  inputs : ∀ i < m, (I i).inputs = pi ++ pi

/-- the public inputs on the rows of a merged circuit -/
theorem pi_row {I : Inst (ZMod p)} (hI : KeyOf f I true) (ho : f.dom.offset = 1) {pi1 pi2 : List (ZMod p)}
    (hi : I.inputs = pi1 ++ pi2) (hl : pi1.length = pi2.length) (hs : 2 * pi1.length ≤ f.dom.size) {j : ℕ}
    (hj : j < f.dom.size) : I.pi.eval (f.dom.gen ^ j) = rowInput f.dom.size pi1 pi2 j := by
  obtain ⟨-, u, v, e1, e2, -, e4⟩ := hI.pi
  have hlen : u.length = pi1.length := by
    have := congrArg List.length (e1.symm.trans hi)
    simp at this
    omega
  obtain ⟨rfl, rfl⟩ := List.append_inj (e1.symm.trans hi) hlen
  have := e4 j hj
  rw [ho, one_mul] at this
  rw [this]
  unfold rowInput
  split
  · rw [List.getD_eq_getElem?_getD (l := v), List.getElem?_eq_none (by omega), Option.getD_none, add_zero]
  · rw [List.getD_eq_getElem?_getD (l := u), List.getElem?_eq_none (by omega), Option.getD_none, zero_add]

/-- C84, the challenges `β` and `γ`: if the wires of a merged circuit do not carry assignments that satisfy both circuits
then some constraint does not vanish. -/
theorem C84_circuit (hroot : IsPrimitiveRoot root (2 ^ S)) (h : Pair S root rnd c1 c2 a b) (hpos : c1.pubIds ≠ [])
    (hf : merge a b = .ok f) {I : Inst (ZMod p)} (hI : KeyOf f I true) {pi1 pi2 : List (ZMod p)}
    (hi : I.inputs = pi1 ++ pi2) (h1 : pi1.length = c1.pubIds.length) (h2 : pi2.length = c2.pubIds.length)
    (w : ℕ → (ZMod p)[X])
    (hno : ¬ ∃ v, Carries f w v ∧ Sat c1 pi1 v ∧ Sat c2 pi2 (fun i => v (c1.numVars + i))) :
    AllBut (10 * f.dom.size * p) fun y : ZMod p × ZMod p =>
      ∀ τ h1 h2 z prod, ¬ Vanish f.dom (play I w h1 h2 z prod) τ y.1 y.2 := by
  classical
  obtain ⟨hd, ho, -, hn, hL, -, hsz⟩ := pair_domain hroot h hpos hf
  obtain ⟨-, -, -, -, uf, -, -, rf, -⟩ := pair_common h hpos hf
  have hin := h.inputs
  by_cases hcopy : ∃ v, Carries f w v
  swap
  · refine ⟨(Set.toFinite {x : ZMod p × ZMod p | CopyConstraints.Closes f (wireValue f w) x.1 x.2}).toFinset, ?_, ?_⟩
    · have := C27_product_sound h hpos hf hroot (wireValue f w) hcopy
      rw [Set.ncard_eq_toFinset_card _ (Set.toFinite _)] at this
      refine this.trans (le_of_eq ?_)
      ring
    · intro y hy τ h1 h2 z prod hv
      refine hy ?_
      rw [Set.Finite.mem_toFinset]
      refine perm_at hI hd ho w h1 h2 z prod y.1 y.2 (fun j hj => hv _ ?_ j hj) (hv _ ?_ 0 (by omega)) <;>
        simp [Inst.constraints]
  obtain ⟨v, hv⟩ := hcopy
  refine AllBut.all _ fun y τ q1 q2 z prod hvan => hno ⟨v, hv, ?_⟩
  refine (C27_gates h hpos hf pi1 pi2 h1 h2 v).1 fun j r hr => ?_
  have hj : j < f.dom.size := by
    rw [← rf]
    exact (List.getElem?_eq_some_iff.1 hr).1
  exact gate_at hI q1 q2 z prod hv (pi_row hI ho hi (by omega) (by omega) hj) hr
    (hvan _ (by simp [Inst.constraints]) j hj)

variable {m : ℕ} {d : Domain (ZMod p)} {c1 c2 : ℕ → Circ p} {a b f : ℕ → FCirc p} {pi : List (ZMod p)}
  {I : ℕ → Inst (ZMod p)}

theorem MBatch.nonempty (hB : MBatch S root rnd m d c1 c2 a b f pi I) {i : ℕ} (hi : i < m) : (c1 i).pubIds ≠ [] := by
  intro h0
  have := hB.pub i hi
  rw [h0] at this
  exact hB.some (List.length_eq_zero_iff.1 this.symm)

theorem MBatch.turbo (hB : MBatch S root rnd m d c1 c2 a b f pi I) {i : ℕ} (hi : i < m) : (I i).lookup.isSome = false := by
  obtain ⟨-, -, -, -, uf, -⟩ := pair_common (hB.pair i hi) (hB.nonempty hi) (hB.merged i hi)
  rw [(hB.key i hi).lookup, uf]
  rfl

theorem MBatch.frame (hB : MBatch S root rnd m d c1 c2 a b f pi I) : Frame S root m d I := by
  have h0 : 0 < m := Nat.pos_of_ne_zero hB.pos
  obtain ⟨-, -, hnew, hn, -⟩ := pair_domain hB.prim (hB.pair 0 h0) (hB.nonempty h0) (hB.merged 0 h0)
  rw [hB.dom 0 h0] at hnew hn
  refine ⟨hB.pos, hB.prim, hnew, hn, fun i hi => ?_, fun i hi => ?_, false, fun i hi => hB.turbo hi⟩
  · have := (hB.key i hi).pi
    rw [hB.dom i hi] at this
    rw [(hB.key i hi).merged]
    exact this
  · rw [← hB.dom i hi]
    exact (hB.key i hi).small

theorem mergeVks_range {ka kb : ℕ → VKey (ZMod p) G G2} {k : ℕ → VKey (ZMod p) G G2} : ∀ {l : List ℕ},
    (∀ i ∈ l, mergeVk (ka i) (kb i) = .ok (k i)) → mergeVks ((l.map ka).zip (l.map kb)) = .ok (l.map k)
  | [], _ => rfl
  | i :: l, h => by
    simp only [List.map_cons, List.zip_cons_cons, mergeVks]
    rw [h i (by simp)]
    simp only
    rw [mergeVks_range (fun j hj => h j (by simp [hj]))]

/-- what the verifier of the batch argument says about the proof with secret `x`: the keys made by preprocessing can be
aggregated, and the two points are computed and rejected -/
def ArgRejected (S : ℕ) (root : ZMod p) (rnd : List (ZMod p)) (e : G →ₗ[ZMod p] G2 →ₗ[ZMod p] GT) (g : G) (h : G2)
    (M m : ℕ) (a b : ℕ → FCirc p) (pi : List (ZMod p)) (ch : Chal (ZMod p)) (π : BProof (ZMod p) G) (x : ZMod p) : Prop :=
  ∀ ka kb : ℕ → PKey (ZMod p) G G2, (∀ i < m, preprocess rnd (genSrs x g h M 1) (a i) = .ok (ka i)) →
    (∀ i < m, preprocess rnd (genSrs x g h M 1) (b i) = .ok (kb i)) →
    ∃ vks, aggregateVks ((List.range m).map fun i => (ka i).vk) ((List.range m).map fun i => (kb i).vk) = .ok vks ∧
      ∀ blind, ∃ P, partialVerify (newDomain S root) (fun _ _ _ => ch) (x • g) g vks pi π blind = .ok P ∧
        decidePoints e (openKey x g h) P.1 P.2 = false

theorem MBatch.rejected (hB : MBatch S root rnd m d c1 c2 a b f pi I) {e : G →ₗ[ZMod p] G2 →ₗ[ZMod p] GT}
    {g : G} {h : G2} {M : ℕ} (hM : d.size + 2 ≤ M) {ch : Chal (ZMod p)} {π : BProof (ZMod p) G} {x : ZMod p}
    {hash : List (ZMod p) → ZMod p}
    (hv : verifyBatch (newDomain S root) e hash (fun _ _ _ => ch)
      ((List.range m).map (fun i => (I i).key (kzg x g) d (openKey x g h)))
      ((List.range m).map (fun i => (I i).inputs)) π = .ok false) :
    ArgRejected S root rnd e g h M m a b pi ch π x := by
  intro ka kb hka hkb
  have hvk : ∀ i < m, mergeVk (ka i).vk (kb i).vk = .ok ((I i).key (kzg x g) d (openKey x g h)) := by
    intro i hi
    obtain ⟨k, -, e2⟩ := merged_key (hB.pair i hi) (hB.nonempty hi) (hB.merged i hi) (hka i hi) (hkb i hi)
    rw [mergePk_vk e2, (merged_pk hB.prim (hB.pair i hi) (hB.nonempty hi) (hB.merged i hi)
      (by rw [hB.dom i hi]; exact hM) (hka i hi) (hkb i hi) e2 (hB.key i hi)).1, hB.dom i hi]
  refine ⟨(List.range m).map (fun i => (I i).key (kzg x g) d (openKey x g h)), ?_, fun blind => ?_⟩
  · unfold aggregateVks
    rw [if_neg (by simp)]
    exact mergeVks_range fun i hi => hvk i (List.mem_range.1 hi)
  refine (C84_decide (newDomain S root) e hash (fun _ _ _ => ch) (k := openKey x g h) ?_ ?_ pi π blind false).2 ?_
  · intro vk hvk
    obtain ⟨i, -, rfl⟩ := List.mem_map.1 (List.mem_of_mem_head? hvk)
    rfl
  · show e g (x • h) = e (x • g) h
    simp
  · rw [← hv]
    congr 1
    refine List.ext_getElem (by simp) fun i h1 h2 => ?_
    simp only [List.getElem_replicate, List.getElem_map, List.getElem_range]
    exact (hB.inputs i (by simpa using h2)).symm

variable [DecidableEq (ZMod p)[X]]

/-- C84: a prover that commits to polynomials for a batch of merged circuits, one of which does not carry assignments
satisfying both of its parts with the shared public inputs, is rejected except for few values of each challenge in turn
(and of the secret of the reference string, which the polynomials do not depend on). -/
theorem C84_sound (hB : MBatch S root rnd m d c1 c2 a b f pi I) (w : ℕ → ℕ → (ZMod p)[X]) (hw : ∀ i j, Low d (w i j))
    (hno : ∃ i < m, ¬ ∃ v, Carries (f i) (w i) v ∧ Sat (c1 i) pi v ∧ Sat (c2 i) pi (fun j => v ((c1 i).numVars + j)))
    (e : G →ₗ[ZMod p] G2 →ₗ[ZMod p] GT) (g : G) (h : G2) (he : e g h ≠ 0) {M : ℕ} (hM : d.size + 2 ≤ M) :
    AllBut (10 * d.size * p) fun βγ : ZMod p × ZMod p => ∀ z : ℕ → (ZMod p)[X], (∀ i, Low d (z i)) →
    AllBut (7 * m) fun α => ∀ ts : List (ZMod p)[X], ts ≠ [] → (∀ t ∈ ts, Low d t) →
    AllBut (7 * (d.size + 2) + (d.size + 2) * ts.length) fun ζ => ∀ cl : ℕ → Claims (ZMod p),
    AllBut (27 * m) fun v => ∀ W W' : (ZMod p)[X], Low d W → Low d W' →
    AllBut 1 fun u => AllBut (d.size + 3) fun x =>
      ArgRejected S root rnd e g h M m a b pi ⟨none, α, βγ.1, βγ.2, ζ, v, u⟩
        (proof (kzg x g) (withClaims m I w (fun _ => 0) (fun _ => 0) z (fun _ => 0) cl) ts W W') x := by
  obtain ⟨i, hi, hno⟩ := hno
  have hlow0 : ∀ i : ℕ, Low d ((fun _ => 0 : ℕ → (ZMod p)[X]) i) := fun i => by simp [Low]
  have hτ : ∀ i < m, (I i).lookup.isSome → (none : Option (ZMod p)) = some 0 := fun k hk hl => by
    rw [hB.turbo hk] at hl
    cases hl
  have hp := hB.pair i hi
  obtain ⟨B, hBc, hβγ⟩ := C84_circuit hB.prim hp (hB.nonempty hi) (hB.merged i hi) (hB.key i hi) (hB.inputs i hi)
    (hB.pub i hi).symm ((hB.pub i hi).symm.trans hp.inputs) (w i) hno
  rw [hB.dom i hi] at hBc hβγ
  refine ⟨B, hBc, fun βγ hβ z hz => ?_⟩
  obtain ⟨A, hA, hα⟩ := alpha_zeta hB.frame hw hlow0 hlow0 hz hlow0 0 βγ.1 βγ.2 hi (hβγ βγ hβ 0 _ _ (z i) _)
  refine ⟨A, hA, fun α hαA ts hts hlow => ?_⟩
  obtain ⟨Z, hZ, hζ⟩ := hα α hαA ts hts hlow
  refine ⟨Z, hZ, fun ζ hζZ cl => ?_⟩
  obtain ⟨V, hV, hv⟩ := v_u hB.frame cl hts hτ α βγ.1 βγ.2 ζ (hζ ζ hζZ)
  refine ⟨V, hV, fun v hvV W W' hW hW' => ?_⟩
  obtain ⟨U, hU, hu⟩ := hv v hvV W W'
  refine ⟨U, hU, fun u huU => ?_⟩
  obtain ⟨X', hX, hs⟩ := secret hB.frame hw hlow0 hlow0 hz hlow0 cl hts hlow hτ α βγ.1 βγ.2 ζ v u hW hW' (hu u huU)
    e (fun _ => 0) g h he
  exact ⟨X', hX, fun x hx => hB.rejected hM (hs x hx)⟩

end

/-! ### Examples -/

section examples

/-- the circuits of type A of the examples -/
def exA1 : Circ 193 := withPub (Circ.new 193 none) 3
def exA2 : Circ 193 := withEq (withPub (Circ.new 193 none) 3)

/-- the circuit of type B of the examples -/
def exB : Circ 193 := withPub (withEq (Circ.new 193 none)) 3

theorem built_exA1 : Built exA1 := built_pub (Built.new none) 3
theorem built_exA2 : Built exA2 := built_eq (built_pub (Built.new none) 3)
theorem built_exB : Built exB := built_pub (built_eq (Built.new none)) 3

/-- the reference string of the examples -/
def exSrs : Srs (ZMod 193) (ZMod 193) := genSrs (5 : ZMod 193) (1 : ZMod 193) (1 : ZMod 193) 10 1

/-- the batch argument returns a proof for two pairs of instances -/
theorem ex_proved : ∃ (y1 y2 z : BInstance 193 (ZMod 193) (ZMod 193)) (π : BProof (ZMod 193) (ZMod 193)),
    Ready 6 125 rnd193 5 1 1 10 .a [3] exA1 y1 ∧ Ready 6 125 rnd193 5 1 1 10 .a [3] exA2 y2 ∧
    Ready 6 125 rnd193 5 1 1 10 .b [3] exB z ∧ y1.circ.dom.size = 8 ∧
    argProve 5 (newDomain 6 125) exOracle exMasks (fun i => i + 1) [y1, y2] [z, z] = .ok π := by
  have h : okAnd (setupInstance 6 125 rnd193 exSrs exA1 .a) (fun y1 =>
      okAnd (setupInstance 6 125 rnd193 exSrs exA2 .a) fun y2 =>
      okAnd (setupInstance 6 125 rnd193 exSrs exB .b) fun z =>
      okAnd (argProve 5 (newDomain 6 125) exOracle exMasks (fun i => i + 1) [y1, y2] [z, z]) fun π =>
        decide (y1.circ.dom.size = 8 ∧ y2.circ.dom.size = 8 ∧ z.circ.dom.size = 8)) = true := by
    unfold setupInstance finalizeMergeable
    simp only [finalize_eq, cosetReps_eq]
    decide +kernel
  obtain ⟨y1, h1, h⟩ := okAnd_elim h
  obtain ⟨y2, h2, h⟩ := okAnd_elim h
  obtain ⟨z, h3, h⟩ := okAnd_elim h
  obtain ⟨π, hπ, h⟩ := okAnd_elim h
  rw [decide_eq_true_iff] at h
  exact ⟨y1, y2, z, π, ⟨built_exA1, h1, by omega, by decide +kernel, by decide +kernel⟩,
    ⟨built_exA2, h2, by omega, by decide +kernel, by decide +kernel⟩,
    ⟨built_exB, h3, by omega, by decide +kernel, by decide +kernel⟩, h.1, hπ⟩

/-- the points are accepted -/
example : ∃ (as bs : List (BInstance 193 (ZMod 193) (ZMod 193))) (π : BProof (ZMod 193) (ZMod 193)),
    as.length = 2 ∧ ∃ vks, aggregateVks (as.map (·.key.vk)) (bs.map (·.key.vk)) = .ok vks ∧ ∀ blind, ∃ P,
      partialVerify (newDomain 6 125) (challenges exOracle none) (5 : ZMod 193) 1 vks [3] π blind = .ok P ∧
        decidePoints (LinearMap.mul (ZMod 193) (ZMod 193)) (openKey (5 : ZMod 193) 1 1) P.1 P.2 = true := by
  obtain ⟨y1, y2, z, π, r1, r2, r3, -, hπ⟩ := ex_proved
  refine ⟨[y1, y2], [z, z], π, rfl, ?_⟩
  have := C84_honest prim125 (as := [y1, y2]) (bs := [z, z]) (x := 5) (g := 1) (h := 1) (m := 10) (pi := [3])
    (rnd := rnd193) (by simp only [List.mem_cons, List.not_mem_nil, or_false]; rintro y (rfl | rfl); exacts [⟨_, r1⟩, ⟨_, r2⟩])
    (by simp only [List.mem_cons, List.not_mem_nil, or_false]; rintro y (rfl | rfl) <;> exact ⟨_, r3⟩)
    (LinearMap.mul (ZMod 193) (ZMod 193)) (by simp) (gen := 5) (by decide +kernel) hπ
  simpa using this

/-- the proof is rejected if the second point is blinded with the wrong multiple of the generator -/
example : ∃ (vks : List (VKey (ZMod 193) (ZMod 193) (ZMod 193))) (π : BProof (ZMod 193) (ZMod 193)) (P : ZMod 193 × ZMod 193),
    partialVerify (newDomain 6 125) (challenges exOracle none) (6 : ZMod 193) 1 vks [3] π 0 = .ok P ∧
    decidePoints (LinearMap.mul (ZMod 193) (ZMod 193)) (openKey (5 : ZMod 193) 1 1) P.1 P.2 = true ∧ ∀ blind, blind ≠ 0 →
      ∃ Q, partialVerify (newDomain 6 125) (challenges exOracle none) (6 : ZMod 193) 1 vks [3] π blind = .ok Q ∧
        decidePoints (LinearMap.mul (ZMod 193) (ZMod 193)) (openKey (5 : ZMod 193) 1 1) Q.1 Q.2 = false := by
  obtain ⟨y1, y2, z, π, r1, r2, r3, -, hπ⟩ := ex_proved
  obtain ⟨vks, -, h⟩ := C84_honest prim125 (as := [y1, y2]) (bs := [z, z]) (x := 5) (g := 1) (h := 1) (m := 10) (pi := [3])
    (rnd := rnd193) (by simp only [List.mem_cons, List.not_mem_nil, or_false]; rintro y (rfl | rfl); exacts [⟨_, r1⟩, ⟨_, r2⟩])
    (by simp only [List.mem_cons, List.not_mem_nil, or_false]; rintro y (rfl | rfl) <;> exact ⟨_, r3⟩)
    (LinearMap.mul (ZMod 193) (ZMod 193)) (by simp) (gen := 5) (by decide +kernel) hπ
  obtain ⟨P, hP, hacc⟩ := h 0
  obtain ⟨d, x, hd, hx, rfl⟩ := partialVerify_ok.1 hP
  have hP' : partialVerify (newDomain 6 125) (challenges exOracle none) (6 : ZMod 193) 1 vks [3] π 0 =
      .ok (openA x + (0 : ZMod 193) • (1 : ZMod 193), openB x 1 + (0 : ZMod 193) • ((5 : ZMod 193) • (1 : ZMod 193))) :=
    partialVerify_ok.2 ⟨d, x, hd, hx, by simp⟩
  refine ⟨vks, π, _, hP', hacc, fun blind hb => ⟨_, partialVerify_ok.2 ⟨d, x, hd, hx, rfl⟩, ?_⟩⟩
  exact C84_wrong_beta (k := openKey (5 : ZMod 193) 1 1) (newDomain 6 125) (LinearMap.mul (ZMod 193) (ZMod 193))
    (challenges exOracle none) (by simp [openKey]; decide) [3] π hb hP' (partialVerify_ok.2 ⟨d, x, hd, hx, rfl⟩) hacc

/-- A batch with public input 4 and wires carrying the value 3. -/
example : ∃ (a b f : FCirc 193) (I : Inst (ZMod 193)) (w : ℕ → (ZMod 193)[X]),
    MBatch 6 125 rnd193 1 f.dom (fun _ => exA1) (fun _ => exB) (fun _ => a) (fun _ => b) (fun _ => f) [4] (fun _ => I) ∧
      (∀ j, Low f.dom (w j)) ∧
      (¬ ∃ v, Carries f w v ∧ Sat exA1 [4] v ∧ Sat exB [4] (fun j => v (exA1.numVars + j))) ∧
      10 * f.dom.size * 193 < 193 * 193 ∧ 7 * (f.dom.size + 2) + (f.dom.size + 2) * 5 < 193 := by
  have h : okAnd (finalizeMergeable .a 6 125 rnd193 exA1) (fun a =>
      okAnd (finalizeMergeable .b 6 125 rnd193 exB) fun b => okAnd (merge a b) fun f =>
        decide (a.dom.size = 8 ∧ b.dom.size = 8 ∧ f.dom.size = 8 ∧
          (f.circ.rows.map (fun r => r.w4))[0]? = some 2)) = true := by
    unfold finalizeMergeable
    simp only [finalize_eq, cosetReps_eq]
    decide +kernel
  obtain ⟨a, ha, h⟩ := okAnd_elim h
  obtain ⟨b, hb, h⟩ := okAnd_elim h
  obtain ⟨f, hf, h⟩ := okAnd_elim h
  rw [decide_eq_true_iff] at h
  obtain ⟨s1, s2, s3, hw⟩ := h
  have hP : Pair 6 125 rnd193 exA1 exB a b := ⟨built_exA1, built_exB, ha, hb, by omega, by decide +kernel⟩
  have hpos : exA1.pubIds ≠ [] := by decide +kernel
  obtain ⟨I, hI, hin, -⟩ := merged_inst prim125 hP hpos hf (pi1 := [4]) (pi2 := [4]) (by decide +kernel) (by decide +kernel)
  obtain ⟨hd, ho, -⟩ := pair_domain prim125 hP hpos hf
  refine ⟨a, b, f, I, fun i => interp f.dom (fun j => if i = 4 ∧ j = 0 then 3 else 0),
    ⟨by decide, prim125, fun _ _ => hP, fun _ _ => by decide +kernel, by decide, fun _ _ => hf, fun _ _ => rfl,
      fun _ _ => hI, fun _ _ => hin⟩, fun j => ?_, ?_, by rw [s3]; norm_num, by rw [s3]; norm_num⟩
  · exact (natDegree_le_of_degree_le (interp_degree _ _).le).trans (by omega)
  · rintro ⟨v, hv, hs, -⟩
    obtain ⟨r, hr, h2⟩ : ∃ r, f.circ.rows[0]? = some r ∧ r.w4 = 2 := by
      rw [List.getElem?_map] at hw
      exact Option.map_eq_some_iff.1 hw
    have h3 := hv (4, 0) 2 (Or.inl ⟨r, hr, by simp [h2]⟩)
    unfold wireValue at h3
    rw [interp_eval hd _ (by simp [s3])] at h3
    have h5 := hs.io 0 2 4 ⟨ioGate, 0, 0, 0, 0, 2⟩ (by decide +kernel) rfl rfl
    simp [Row.Holds, Sel.output, ioGate] at h5 h3
    exact absurd (h5.trans h3.symm) (by decide)

end examples

end Verif.Props.BatchArg
