import Verif.Props.VerifierPointsHash

/-!
# The hypotheses of C83 are met

A circuit over the base field of BLS12-377 with the shipped Rescue permutation, a key and a proof with commitments in the
group `G1`.
-/

set_option linter.unusedSectionVars false

namespace Verif.Props.VerifierPoints

open Verif.Circuit Verif.Circuit.VerifierPoly Verif.Circuit.TranscriptVar Verif.Circuit.VerifierAgg Verif.Props.VerifierCircuit
open Verif.Props.TranscriptCircuit Verif.Plonk Verif.Props.Emulated Verif.Props.Msm Verif.Props.Ecc Verif.Curves
open Verif.Rescue (Vec Consts p_fq377 p_ed377 fq377)

theorem exInfo : fieldInfo p_fq377 p_ed377 16 = .ok I377 := by
  have h1 : (modulusBits p_ed377 + 1) / 2 = 127 := by decide +kernel
  have h2 : ¬ modulusBits p_fq377 / 2 < 128 := by decide +kernel
  have h3 : divRem ((p_ed377 : ℕ) : ZMod p_fq377) (2 ^ 128) = .ok (ModArith.r377.p1, ModArith.r377.p0) := by decide +kernel
  unfold fieldInfo
  simp only [h1]
  rw [if_neg (by norm_num)]
  unfold FpElem.new
  have h4 : (127 - 1) / 16 * 16 + 16 = 128 := by norm_num
  rw [h4, if_neg h2]
  simp only [Option.getD_some]
  rw [h3]
  have h5 : (⟨ModArith.r377.p0, ModArith.r377.p1, 128, 2 ^ 128⟩ : FpElem p_fq377) = ModArith.r377 := rfl
  unfold I377
  rw [← h5]
  rfl

theorem exSetup {f : Vec (ZMod p_fq377) → Vec (ZMod p_fq377)} (hf : HashOk fq377 f) :
    Setup I377 16 fq377 f g1Bls377 te377 fD 2 1 where
  params := I377_params
  info := exInfo
  hash := hf
  bitsp := bits377
  bitsQ := bits253
  curve := ⟨rfl, d377_eq.symm⟩
  order := by decide +kernel
  window := by decide +kernel
  scalars := by decide +kernel
  wide := by decide +kernel
  root := fD_prim
  offset := rfl
  two := ⟨1, rfl⟩
  size := by decide +kernel
  inputs := by decide +kernel
  proofs := by decide +kernel

/-- the domains of the example: only the one with two points -/
def exDom (n : ℕ) : Option (Pcs.Domain (ZMod p_ed377)) := if n = 2 then some fD else none

def exEv : Evals (ZMod p_ed377) := ⟨[1, 2, 3, 4, 5], [6, 7, 8, 9], 10⟩

noncomputable def exKey : VKey (ZMod p_ed377) G1 ℕ :=
  ⟨2, 2, List.replicate 5 gen, List.replicate 13 gen, [1, 2, 3, 4, 5], ⟨gen, 0, 0, [], []⟩, true, none⟩

noncomputable def exProof : BProof (ZMod p_ed377) G1 :=
  ⟨[List.replicate 5 gen], [gen], [exEv], [none], List.replicate 5 gen, gen, gen⟩

theorem exTurbo : Turbo fD 2 [exKey] exProof where
  pos := by simp
  prodPerm := rfl
  evals := rfl
  wires := rfl
  lookups := rfl
  wiresLen := by simp [exProof]
  evalsLen := by simp [exProof, exEv]
  sigmasLen := by simp [exKey]
  quot := by simp [exProof]
  merged := by simp [exKey]
  noLookup := by simp [exKey]
  inputs := by simp [exKey]
  dom := by simp [exKey]; rfl

/-- the variables of the example: the input, the evaluations, the coordinates of the generator, the blinding factor -/
def exVars : Build p_fq377 (List (FpElemVar p_fq377) × (ℕ × ℕ) × ℕ) := do
  let vs ← newElems I377 ([7, 1, 2, 3, 4, 5, 6, 7, 8, 9, 10] : List (ZMod p_ed377))
  let x ← createVariable g1G.1
  let y ← createVariable g1G.2
  let s ← createVariable 12345
  pure (vs, (x, y), s)

theorem exCirc : ∃ vs P s c, exVars (Circ.new p_fq377 (some 16)) = .ok ((vs, P, s), c) ∧ Ready 16 c ∧ Room 100 c ∧
    checkSat c [] = .ok () ∧ List.Forall₂ (Stores I377 c) vs ([7, 1, 2, 3, 4, 5, 6, 7, 8, 9, 10] : List (ZMod p_ed377)) ∧
    P.1 < c.numVars ∧ P.2 < c.numVars ∧ ptAt c.val P = g1G ∧ s < c.numVars ∧ c.val s = 12345 ∧ Built c := by
  have hr : RangeOK (Circ.new p_fq377 (some 16)) := by
    intro j hj
    simp only [Circ.new, Option.some.injEq] at hj
    subst hj
    exact ⟨by norm_num, by norm_num, by decide +kernel⟩
  have hw := wf_new (p := p_fq377) (some 16)
  have hs := Verif.Props.Emulated.sat_new (p := p_fq377) (some 16)
  have hR : Ready 16 (Circ.new p_fq377 (some 16)) := ⟨hw, hr, rfl⟩
  have sp := newElems_spec I377_params.par ([7, 1, 2, 3, 4, 5, 6, 7, 8, 9, 10] : List (ZMod p_ed377)) (hR.ctx hs)
  obtain ⟨vs, c1, g1, s1⟩ := sp.complete trivial [] hs
  obtain ⟨e1, b1, -⟩ := sp.sound _ _ g1
  have sp2 := createVariable_spec e1.wf g1G.1 True
  obtain ⟨x, c2, g2, s2⟩ := sp2.complete trivial [] s1
  obtain ⟨e2, b2, -⟩ := sp2.sound _ _ g2
  have sp3 := createVariable_spec e2.wf g1G.2 True
  obtain ⟨y, c3, g3, s3⟩ := sp3.complete trivial [] s2
  obtain ⟨e3, b3, -⟩ := sp3.sound _ _ g3
  have sp4 := createVariable_spec e3.wf 12345 True
  obtain ⟨s, c4, g4, s4⟩ := sp4.complete trivial [] s3
  obtain ⟨e4, b4, -⟩ := sp4.sound _ _ g4
  have e34 := e3.trans e4
  have e24 := e2.trans e34
  have e14 := e1.trans e24
  refine ⟨vs, (x, y), s, c4, ?_, ⟨e4.wf, hr.ext e14, by rw [e14.ultra]; rfl⟩, ?_, (checkSat_ok e4.wf []).2 s4,
    b1.imp fun _ _ g => stores_of_hol (g.ext e24), e34.lt b2.1, e4.lt b3.1, ?_, b4.1, b4.2, (Built.new (some 16)).of_ext e14⟩
  · unfold exVars
    rw [bind_of_ok g1, bind_of_ok g2, bind_of_ok g3, bind_of_ok g4]
    rfl
  · have h := room_tw (N := 100) (M := 100) hR ⟨tablesOK_new _, by decide +kernel⟩ e14 le_rfl
    exact ⟨h.tables, h.room⟩
  · unfold ptAt
    show (c4.val x, c4.val y) = g1G
    rw [e34.val _ b2.1, e4.val _ b3.1, b2.2, b3.2]

theorem g1G_cast : [g1G.1, g1G.2] = gN.map fun n : ℕ => (n : ZMod p_fq377) := by
  unfold g1G gN
  simp only [List.map_cons, List.map_nil]
  norm_cast

/-- **The hypotheses of C83 are met**: with the shipped Rescue permutation, and a key and a proof whose commitments are the
generator of `G1`, the circuit is built and satisfied, returns the native points, and meets the hypotheses of
`C83_sound_partial`. -/
theorem example_holds : ∃ (f : Vec (ZMod p_fq377) → Vec (ZMod p_fq377)) (c c' : Circ p_fq377) (vks : List (VkVar p_ed377))
    (pi : List (FpElemVar p_fq377)) (b : ProofVar p_fq377) (s : ℕ) (r : (ℕ × ℕ) × (ℕ × ℕ)) (x : PcsVar p_fq377) (P1 P2 : G1),
    HashOk fq377 f ∧ Built c ∧ s < c.numVars ∧ Ready 16 c ∧ Room (tables [exKey] exProof) c ∧ Exist I377 c vks (List.replicate vks.length (pi ++ pi)) b ∧
    VerifierAgg.partialVerify fq377 g1Bls377 exDom (tau (3 • gen)).1 (tau gen).1 vks pi b s c = .ok ((r, x), c') ∧
    checkSat c' [] = .ok () ∧
    Plonk.partialVerify exDom (native tau f) (3 • gen) gen [exKey] [7] exProof 12345 = .ok (P1, P2) ∧
    ptAt c'.val r.1 = (tau P1).1 ∧ ptAt c'.val r.2 = (tau P2).1 ∧
    Data I377 tau c'.val vks (pi ++ pi) b [exKey] [7, 7] exProof ∧ (six x.ch).All (Small I377 c'.val) ∧
    (∀ s ∈ x.sums, Small I377 c'.val s) ∧ vanishing fD (value p_ed377 I377 c'.val x.ch.ζ) ≠ 0 ∧
    vanishing fD (native tau f [exKey] (List.replicate [exKey].length ([7] ++ [7])) exProof).ζ ≠ 0 := by
  obtain ⟨f, hf⟩ := hash377
  obtain ⟨vs, P, s, c, -, hR, hroom, hs, hf11, hP1, hP2, hPt, hsl, hsv, hbt⟩ := exCirc
  simp only [List.forall₂_cons_right_iff, List.forall₂_nil_right_iff] at hf11
  obtain ⟨i, _, h1, ⟨w0, _, h2, ⟨w1, _, h3, ⟨w2, _, h4, ⟨w3, _, h5, ⟨w4, _, h6, ⟨s0, _, h7, ⟨s1, _, h8, ⟨s2, _, h9,
    ⟨s3, _, h10, ⟨pn, _, h11, rfl, rfl⟩, rfl⟩, rfl⟩, rfl⟩, rfl⟩, rfl⟩, rfl⟩, rfl⟩, rfl⟩, rfl⟩, rfl⟩ := hf11
  have hpts : ∀ n, PtsIn (List.replicate n P) c := by
    intro n R hR
    rw [(List.mem_replicate.1 hR).2]
    exact ⟨hP1, hP2⟩
  have hte : coord tau gen = some (c.val P.1, c.val P.2) := by
    unfold coord
    rw [tau_gen, ← hPt]
    rfl
  have hsh : ∀ n, Shows (coord tau) c.val (List.replicate n P) (List.replicate n gen) := by
    intro n
    unfold Shows
    induction n with
    | zero => exact .nil
    | succ n ih => exact .cons hte ih
  have en := fun {x : FpElemVar p_fq377} {a : ZMod p_ed377} (h : Stores I377 c x a) => enc_of_stores I377_params h
  set vks : List (VkVar p_ed377) := [⟨List.replicate 5 P, List.replicate 13 P, true, 2, 2, [1, 2, 3, 4, 5]⟩] with hvks
  set b : ProofVar p_fq377 := ⟨[List.replicate 5 P], [P], [⟨[w0, w1, w2, w3, w4], [s0, s1, s2, s3], pn⟩], List.replicate 5 P, P, P⟩
    with hb
  have hE : Exist I377 c vks (List.replicate vks.length ([i] ++ [i])) b := by
    refine ⟨?_, ?_, ?_, hpts 1, ?_, hpts 5, hpts 2⟩
    · intro y hy
      rw [List.mem_singleton.1 hy]
      exact ⟨hpts _, hpts _⟩
    · intro l hl y hy
      rw [(List.mem_replicate.1 hl).2] at hy
      simp only [List.cons_append, List.nil_append, List.mem_cons, List.not_mem_nil, or_false, or_self] at hy
      rw [hy]
      exact h1.1
    · intro l hl
      rw [List.mem_singleton.1 hl]
      exact hpts _
    · intro e he
      rw [List.mem_singleton.1 he]
      refine ⟨?_, ?_, h11.1⟩
      · intro y hy
        simp only [List.mem_cons, List.not_mem_nil, or_false] at hy
        rcases hy with rfl | rfl | rfl | rfl | rfl
        exacts [h2.1, h3.1, h4.1, h5.1, h6.1]
      · intro y hy
        simp only [List.mem_cons, List.not_mem_nil, or_false] at hy
        rcases hy with rfl | rfl | rfl | rfl
        exacts [h7.1, h8.1, h9.1, h10.1]
  have hin : Input (coord tau) c.val vks (List.replicate vks.length ([i] ++ [i])) b [exKey] (List.replicate 1 [7, 7]) exProof := by
    refine ⟨.cons ⟨hsh _, hsh _⟩ .nil, .cons (.cons (en h1) (.cons (en h1) .nil)) .nil, ⟨.cons (hsh _) .nil, hsh 1,
      .cons ⟨?_, ?_, en h11⟩ .nil, hsh 5, hte, hte⟩, ?_, ?_, rfl, rfl⟩
    · exact .cons (en h2) (.cons (en h3) (.cons (en h4) (.cons (en h5) (.cons (en h6) .nil))))
    · exact .cons (en h7) (.cons (en h8) (.cons (en h9) (.cons (en h10) .nil)))
    · intro l hl; exact List.mem_singleton.1 hl
    · intro vk hvk; rw [List.mem_singleton.1 hvk]; rfl
  have hD : Data I377 tau c.val vks ([i] ++ [i]) b [exKey] ([7] ++ [7]) exProof := by
    refine ⟨hin, .cons ⟨rfl, rfl, rfl⟩ .nil, ?_, ?_⟩
    · intro y hy
      simp only [List.cons_append, List.nil_append, List.mem_cons, List.not_mem_nil, or_false, or_self] at hy
      rw [hy]
      exact stores_small h1
    · intro e he
      rw [List.mem_singleton.1 he]
      refine ⟨?_, ?_, stores_small h11⟩
      · intro y hy
        simp only [List.mem_cons, List.not_mem_nil, or_false] at hy
        rcases hy with rfl | rfl | rfl | rfl | rfl
        exacts [stores_small h2, stores_small h3, stores_small h4, stores_small h5, stores_small h6]
      · intro y hy
        simp only [List.mem_cons, List.not_mem_nil, or_false] at hy
        rcases hy with rfl | rfl | rfl | rfl
        exacts [stores_small h7, stores_small h8, stores_small h9, stores_small h10]
  have hr : ∀ n, ptVals c.val (List.replicate n P) = (gNs n).map fun n : ℕ => (n : ZMod p_fq377) := by
    intro n
    have hg : [c.val P.1, c.val P.2] = gN.map fun n : ℕ => (n : ZMod p_fq377) := by
      have : [c.val P.1, c.val P.2] = [g1G.1, g1G.2] := by rw [← hPt]; rfl
      rw [this]
      exact g1G_cast
    induction n with
    | zero => rfl
    | succ n ih =>
      unfold ptVals gNs at ih ⊢
      rw [List.replicate_succ, List.flatMap_cons, ih, List.replicate_succ, List.flatten_cons, List.map_append, hg]
  have hi : i.felt c.val = ((7 : ℕ) : ZMod p_fq377) := by
    have : i.felt c.val = (((7 : ZMod p_ed377).val : ℕ) : ZMod p_fq377) := en h1
    rw [this]
    have : (7 : ZMod p_ed377).val = 7 := by decide +kernel
    rw [this]
  have hζ : (native tau f [exKey] (List.replicate [exKey].length ([7] ++ [7])) exProof).ζ = low p_ed377 ((exH : ℕ) : ZMod p_fq377) := by
    have hc := native_challenges (f := f) bits377 bits253 hin (msg_none (p := p_fq377))
    refine (congrArg Chal.ζ hc).trans ?_
    refine congrArg (low p_ed377) (hash_zeta hf ?_ (hr 1) (hr 5))
    show [] ++ _ ++ ptVals c.val (List.replicate 5 P ++ []) = _
    rw [List.append_nil, hr]
    show [] ++ ((ptVals c.val (List.replicate 13 P) ++ ptVals c.val (List.replicate 5 P) ++ [i.felt c.val, i.felt c.val]) ++ []) ++ _ = _
    rw [hr, hr, hi]
    simp only [exNumbers, List.map_append, List.nil_append, List.append_nil, List.map_cons, List.map_nil]
  have hv : vanishing fD (native tau f [exKey] (List.replicate [exKey].length ([7] ++ [7])) exProof).ζ ≠ 0 := by
    rw [hζ]
    unfold low
    rw [val_hash (by decide +kernel)]
    have : ((exH % 2 ^ 248 : ℕ) : ZMod p_ed377) ^ 2 - 1 ^ 2 ≠ 0 := by decide +kernel
    exact this
  have hroom' : Room (tables [exKey] exProof) c := ⟨hroom.1, lt_of_le_of_lt (by
    have : tables [exKey] exProof = 37 := rfl
    omega) hroom.2⟩
  obtain ⟨r, x, c', P1, P2, a1, a2, a3, a4, a5, a6, a7, a8, a9⟩ := C83_honest (newDom := exDom) (PI := [7]) (pi := [i]) (exSetup hf) exTurbo rfl hR
    hroom' hs hE hD hsl (by rw [hsv]; decide +kernel) gen (3 • gen) hv
  refine ⟨f, c, c', vks, [i], b, s, r, x, P1, P2, hf, hbt, hsl, hR, hroom', hE, a1, a2, ?_, a4, a5, hD.agree hE (by simp) a6, a7, a8, ?_, hv⟩
  · rw [hsv] at a3
    have : (((12345 : ZMod p_fq377).val : ℕ) : ZMod p_ed377) = 12345 := by decide +kernel
    rw [this] at a3
    exact a3
  · rw [a9]
    exact hv

/-- a key that is not merged -/
noncomputable def exKey1 : VKey (ZMod p_ed377) G1 ℕ := { exKey with numInputs := 1, merged := false }

/-- The hypotheses of the theorems on keys are met: the key of the example with itself. -/
example : ∃ (c c' : Circ p_fq377) (a v : VkVar p_ed377) (V : VKey (ZMod p_ed377) G1 ℕ),
    aggregateKeys g1Bls377 [a] [a] c = .ok ([v], c') ∧ checkSat c' [] = .ok () ∧ aggregateVks [exKey1] [exKey1] = .ok [V] ∧
    V.sigmas = List.replicate 5 (gen + gen) ∧ ShowsKey tau c'.val a exKey1 ∧ ShowsKey tau c'.val v V := by
  obtain ⟨vs, P, s, c, -, hR, -, hs, -, hP1, hP2, hPt, -⟩ := exCirc
  have hpts : ∀ n, PtsIn (List.replicate n P) c := by
    intro n R hR
    rw [(List.mem_replicate.1 hR).2]
    exact ⟨hP1, hP2⟩
  have hsh : ∀ n (w : ℕ → ZMod p_fq377), (∀ i < c.numVars, w i = c.val i) →
      Shows (coord tau) w (List.replicate n P) (List.replicate n gen) := by
    intro n w hw
    have hte : coord tau gen = some (w P.1, w P.2) := by
      unfold coord
      rw [tau_gen, ← hPt, hw _ hP1, hw _ hP2]
      rfl
    unfold Shows
    induction n with
    | zero => exact .nil
    | succ n ih => exact .cons hte ih
  set a : VkVar p_ed377 := ⟨List.replicate 5 P, List.replicate 13 P, false, 2, 1, [1, 2, 3, 4, 5]⟩ with ha
  have hin : ∀ x ∈ [a], KeyIn x c := by
    intro x hx
    rw [List.mem_singleton.1 hx]
    exact ⟨hpts _, hpts _⟩
  have hk : ∀ w : ℕ → ZMod p_fq377, (∀ i < c.numVars, w i = c.val i) → ShowsKey tau w a exKey1 := fun w hw =>
    ⟨⟨hsh _ w hw, hsh _ w hw⟩, ⟨rfl, rfl, rfl⟩, rfl⟩
  have hE : OnTE g1Bls377 te377 := ⟨rfl, d377_eq.symm⟩
  obtain ⟨V, hV, hV5⟩ : ∃ V, aggregateVks [exKey1] [exKey1] = .ok [V] ∧ V.sigmas = List.replicate 5 (gen + gen) := ⟨_, rfl, rfl⟩
  obtain ⟨vks, c', h1, h2, -, h3⟩ := C83_keys_honest hE hR.1 hs hin hin (.cons (hk _ fun _ _ => rfl) .nil)
    (.cons (hk _ fun _ _ => rfl) .nil) hV
  cases h3 with
  | cons hv ht =>
    cases ht
    have hz : ∀ x ∈ [a].zip [a], KeyIn x.1 c ∧ KeyIn x.2 c := fun x hx => ⟨hin _ (List.of_mem_zip hx).1, hin _ (List.of_mem_zip hx).2⟩
    have h1' := h1
    unfold aggregateKeys at h1'
    rw [if_neg (by simp)] at h1'
    obtain ⟨e, -, -⟩ := (mergeAll_spec hE hR.1 hz).sound _ _ h1'
    exact ⟨c, c', a, _, V, h1, h2, hV, hV5, hk _ fun i hi => e.val i hi, hv⟩

end Verif.Props.VerifierPoints
