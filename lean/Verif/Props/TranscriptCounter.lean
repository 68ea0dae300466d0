import Verif.Props.TranscriptCircuit
import Verif.Props.SchnorrCircuit

/-!
# C81 for the shipped hash over the base field of BLS12-377

Keys and a proof of the shape of TurboPlonk (13 selectors, 5 permutation polynomials, 5 wires, one public input) whose
commitments are all the point at infinity, `(0, 1)` in twisted Edwards form. The hash of the transcript is computed in
the kernel. The example for the message has one selector, one permutation polynomial and one wire.
-/

namespace Verif.Rescue

/-- the permutation on canonical numbers -/
def permNat (p : ℕ) (K : Consts) (s : Vec ℕ) : Vec ℕ :=
  match K.permRoundKeys with
  | [] => s
  | k0 :: ks => (scheduleNat p K 0 ks (Vec.zipWith (· + ·) s k0)).getLastD (Vec.zipWith (· + ·) s k0)

/-- `addElems` on numbers -/
def addElemsNat (v : Vec ℕ) : List ℕ → Vec ℕ
  | [] => v
  | [x] => ⟨v.a + x, v.b, v.c, v.d⟩
  | [x, y] => ⟨v.a + x, v.b + y, v.c, v.d⟩
  | [x, y, z] => ⟨v.a + x, v.b + y, v.c + z, v.d⟩
  | x :: y :: z :: t :: _ => ⟨v.a + x, v.b + y, v.c + z, v.d + t⟩

/-- the padded input on numbers -/
def bitPadNat (l : List ℕ) : List ℕ := resize (l ++ [1]) (lenToNextMultiple (l ++ [1]).length crhfRate) 0

/-- absorbing on canonical numbers -/
def absorbNat (p : ℕ) (K : Consts) (l : List ℕ) : Vec ℕ :=
  (chunks crhfRate l).foldl (fun s c => permNat p K (addElemsNat s c)) ⟨0, 0, 0, 0⟩

variable {p : ℕ} {K : Consts} {f : Vec (ZMod p) → Vec (ZMod p)}

theorem roundLoop_last (K : Consts) (mds : Mat (ZMod p)) (ks : List (Vec (ZMod p))) : ∀ (i : ℕ) (s : Vec (ZMod p)),
    roundLoop K mds i ks s = (scheduleLoop K mds i ks s).getLastD s := by
  induction ks with
  | nil => intro i s; rfl
  | cons k ks ih =>
    intro i s
    rw [roundLoop, scheduleLoop, ih]
    exact (List.getLastD_cons ..).symm

theorem permNat_cast (h : ∀ s, (Permutation.default K).eval K s = some (f s)) (hA : K.A < 2 ^ 512)
    (hI : limbsVal K.aInv < 2 ^ 512) (s : Vec ℕ) : f (ofBytes s) = ofBytes (permNat p K s) := by
  have h1 := h (ofBytes s)
  unfold Permutation.eval prpWithRoundKeys at h1
  split at h1
  · cases h1
  rename_i hl
  unfold permNat
  cases hk : K.permRoundKeys with
  | nil => simp [Permutation.default, hk, rounds] at hl
  | cons k0 ks =>
    simp only [Permutation.default, PRP.default, hk, List.map_cons, Option.some.injEq] at h1
    rw [← h1, roundLoop_last]
    have h2 : addVec (ofBytes s : Vec (ZMod p)) (ofBytes k0) = ofBytes (Vec.zipWith (· + ·) s k0) := by
      simp [addVec, Vec.zipWith, ofBytes, Vec.map]
    rw [h2, ← scheduleNat_cast K hA hI]
    simp only [List.getLastD_eq_getLast?, List.getLast?_map]
    cases (scheduleNat p K 0 ks (Vec.zipWith (· + ·) s k0)).getLast? <;> rfl

theorem addElemsNat_cast (v : Vec ℕ) (l : List ℕ) :
    addElems (ofBytes v : Vec (ZMod p)) (l.map fun n : ℕ => (n : ZMod p)) = ofBytes (addElemsNat v l) := by
  match l with
  | [] => rfl
  | [x] => simp [addElems, addElemsNat, ofBytes, Vec.map]
  | [x, y] => simp [addElems, addElemsNat, ofBytes, Vec.map]
  | [x, y, z] => simp [addElems, addElemsNat, ofBytes, Vec.map]
  | x :: y :: z :: t :: _ => simp [addElems, addElemsNat, ofBytes, Vec.map]

theorem chunks_map {α β : Type} (g : α → β) (n : ℕ) (l : List α) : chunks n (l.map g) = (chunks n l).map (List.map g) := by
  unfold chunks
  rw [List.length_map]
  generalize l.length = m
  induction m generalizing l with
  | zero => rfl
  | succ m ih =>
    simp only [chunksAux, List.map_eq_nil_iff]
    split
    · rfl
    · rw [List.map_cons, ← List.map_take, ← List.map_drop, ih]

theorem absorbNat_cast (h : ∀ s, (Permutation.default K).eval K s = some (f s)) (hA : K.A < 2 ^ 512)
    (hI : limbsVal K.aInv < 2 ^ 512) (l : List ℕ) :
    absorb f crhfRate zeroVec (l.map fun n : ℕ => (n : ZMod p)) = ofBytes (absorbNat p K l) := by
  unfold absorb absorbNat
  rw [chunks_map]
  have h0 : (zeroVec : Vec (ZMod p)) = ofBytes ⟨0, 0, 0, 0⟩ := by simp [zeroVec, ofBytes, Vec.map]
  rw [h0]
  generalize (⟨0, 0, 0, 0⟩ : Vec ℕ) = s
  induction chunks crhfRate l generalizing s with
  | nil => rfl
  | cons c cs ih =>
    simp only [List.map_cons, List.foldl_cons]
    rw [addElemsNat_cast, permNat_cast h hA hI, ih]

theorem bitPadNat_cast (l : List ℕ) : bitPad (l.map fun n : ℕ => (n : ZMod p)) = (bitPadNat l).map fun n : ℕ => (n : ZMod p) := by
  simp [bitPad, bitPadNat, padWithZeros, resize]

end Verif.Rescue

namespace Verif.Props.TranscriptCircuit

open Verif.Circuit Verif.Circuit.VerifierPoly Verif.Circuit.TranscriptVar Verif.Props.VerifierCircuit Verif.Plonk Verif.Conv
open Verif.Rescue (Vec Consts p_fq377 p_ed377 fq377)

theorem nextState_a {F : Type} [CommRing F] [Nontrivial F] (f : Vec F → Vec F) (s : Vec F) (l : List F) :
    (nextState f s l).a = (Rescue.absorb f Rescue.crhfRate Rescue.zeroVec (Rescue.bitPad (s.elems ++ l))).a := by
  obtain ⟨d, h1, -, h2⟩ := Rescue.C40_variable_total f 4 (s.elems ++ l)
  set S := Rescue.absorb f Rescue.crhfRate Rescue.zeroVec (Rescue.bitPad (s.elems ++ l))
  have h3 : d = [S.a, S.b, S.c, (f S).a] := h2
  unfold nextState
  rw [h1, h3]

/-- the numbers absorbed before `β`, for `n` selectors, permutation polynomials and wires -/
def numbers (n : ℕ × ℕ × ℕ) (m : List ℕ) (x : ℕ) : List ℕ :=
  m ++ ((List.replicate n.1 [0, 1]).flatten ++ (List.replicate n.2.1 [0, 1]).flatten ++ [x]) ++
    (List.replicate n.2.2 [0, 1]).flatten

/-- the hash before `β` -/
def hashNat (n : ℕ × ℕ × ℕ) (m : List ℕ) (x : ℕ) : ℕ := (Rescue.absorbNat p_fq377 fq377 (Rescue.bitPadNat ([0, 0, 0, 0] ++ numbers n m x))).a

theorem hash_nat {f : Vec (ZMod p_fq377) → Vec (ZMod p_fq377)} (h : HashOk fq377 f) {D : Data (ZMod p_fq377)} {n : ℕ × ℕ × ℕ} {m : List ℕ}
    {x : ℕ}
    (hD : D.d0 = (numbers n m x).map fun n : ℕ => (n : ZMod p_fq377)) :
    (hashes f D).β = ((hashNat n m x : ℕ) : ZMod p_fq377) := by
  show (nextState f Rescue.zeroVec D.d0).a = _
  rw [nextState_a, hD]
  have h1 : (Rescue.zeroVec : Vec (ZMod p_fq377)).elems ++ (numbers n m x).map (fun n : ℕ => (n : ZMod p_fq377)) =
      ([0, 0, 0, 0] ++ numbers n m x).map fun n : ℕ => (n : ZMod p_fq377) := by
    simp [Rescue.zeroVec, Vec.elems]
  rw [h1, Rescue.bitPadNat_cast, Rescue.absorbNat_cast h.eval (by decide +kernel) (by decide +kernel)]
  rfl

attribute [irreducible] hashNat

/-- all commitments are the point at infinity -/
def tE : ℕ → Option (ZMod p_fq377 × ZMod p_fq377) := fun _ => some (0, 1)

def tEv : Evals (ZMod p_ed377) := ⟨[1, 2, 3, 4, 5], [6, 7, 8, 9], 10⟩
def tB (n : ℕ × ℕ × ℕ) : BProof (ZMod p_ed377) ℕ := ⟨[List.replicate n.2.2 0], [0], [tEv], [none], List.replicate 5 0, 0, 0⟩
def tK (n : ℕ × ℕ × ℕ) : VKey (ZMod p_ed377) ℕ ℕ :=
  ⟨8, 1, List.replicate n.2.1 0, List.replicate n.1 0, [1, 2, 3, 4, 5], ⟨0, 0, 0, [], []⟩, false, none⟩
/-- the shape of TurboPlonk -/
def tN : ℕ × ℕ × ℕ := (13, 5, 5)

/-- a small shape -/
def tS : ℕ × ℕ × ℕ := (1, 1, 1)

def tL : List (ZMod p_ed377) := [1, 1, 2, 3, 4, 5, 6, 7, 8, 9, 10]

theorem enc_of_stores {I : Info p_fq377} {k : ℕ} (hP : Params I p_ed377 k) {c : Circ p_fq377} {x : FpElemVar p_fq377} {a : ZMod p_ed377}
    (h : Stores I c x a) : Enc c.val x a := by
  obtain ⟨⟨-, -, h1⟩, h2, h3⟩ := h
  unfold Enc
  have e : ∀ v, c.val v = (((c.val v).val : ℕ) : ZMod p_fq377) := fun v => by rw [ZMod.natCast_val, ZMod.cast_id]
  rw [e x.v0, e x.v1, h2, h3, h1, hP.mul.tpm]
  conv_rhs => rw [← Nat.mod_add_div a.val (2 ^ I.mod.m)]
  push_cast
  rfl

/-- a circuit with these keys and this proof -/
theorem setup (n : ℕ × ℕ × ℕ) {k : ℕ} (hP : Params I377 p_ed377 k) (k1 : k < 32) (k2 : 2 ^ k < p_fq377) :
    ∃ (c : Circ p_fq377) (vks : List (VkVar p_ed377)) (pis : List (List (FpElemVar p_fq377))) (b : ProofVar p_fq377),
      Ready k c ∧ checkSat c [] = .ok () ∧ Exist I377 c vks pis b ∧ Input tE c.val vks pis b [tK n] [[1]] (tB n) ∧
      ∀ m : List ℕ, (dataOf c.val (m.map fun n : ℕ => (n : ZMod p_fq377)) vks pis b).d0 =
        (numbers n m 1).map fun n : ℕ => (n : ZMod p_fq377) := by
  obtain ⟨vs, c, g, hR, hs, hf⟩ := elems hP k1 k2 tL
  unfold tL at hf
  simp only [List.forall₂_cons_right_iff, List.forall₂_nil_right_iff] at hf
  obtain ⟨x, _, h1, ⟨w0, _, h2, ⟨w1, _, h3, ⟨w2, _, h4, ⟨w3, _, h5, ⟨w4, _, h6, ⟨s0, _, h7, ⟨s1, _, h8, ⟨s2, _, h9,
    ⟨s3, _, h10, ⟨pn, _, h11, rfl, rfl⟩, rfl⟩, rfl⟩, rfl⟩, rfl⟩, rfl⟩, rfl⟩, rfl⟩, rfl⟩, rfl⟩, rfl⟩ := hf
  have hs' := (checkSat_ok hR.1 []).1 hs
  have v0 : c.val 0 = 0 := Sat.zero hR.1 hs'
  have v1 : c.val 1 = 1 := Sat.one hR.1 hs'
  have l0 : 0 < c.numVars := hR.1.z
  have l1 : 1 < c.numVars := hR.1.o
  have hpts : ∀ n, PtsIn (List.replicate n (0, 1)) c := by
    intro n P hP
    rw [(List.mem_replicate.1 hP).2]
    exact ⟨l0, l1⟩
  have hte : ∀ g, tE g = some (c.val 0, c.val 1) := by intro g; rw [v0, v1]; rfl
  have hsh : ∀ n, Shows tE c.val (List.replicate n (0, 1)) (List.replicate n 0) := by
    intro n
    unfold Shows
    induction n with
    | zero => exact .nil
    | succ n ih => exact .cons (hte _) ih
  have en := fun {x : FpElemVar p_fq377} {a : ZMod p_ed377} (h : Stores I377 c x a) => enc_of_stores hP h
  refine ⟨c, [⟨List.replicate n.2.1 (0, 1), List.replicate n.1 (0, 1), false, 8, 1, [1, 2, 3, 4, 5]⟩], [[x]],
    ⟨[List.replicate n.2.2 (0, 1)], [(0, 1)], [⟨[w0, w1, w2, w3, w4], [s0, s1, s2, s3], pn⟩], List.replicate 5 (0, 1), (0, 1), (0, 1)⟩,
    hR, hs, ?_, ?_, ?_⟩
  · refine ⟨?_, ?_, ?_, hpts 1, ?_, hpts 5, hpts 2⟩
    · intro y hy
      rw [List.mem_singleton.1 hy]
      exact ⟨hpts _, hpts _⟩
    · intro l hl y hy
      rw [List.mem_singleton.1 hl] at hy
      rw [List.mem_singleton.1 hy]
      exact h1.1
    · intro l hl
      rw [List.mem_singleton.1 hl]
      exact hpts _
    · intro e he
      rw [List.mem_singleton.1 he]
      refine ⟨?_, ?_, h11.1⟩
      · intro y hy
        simp only [List.mem_cons, List.not_mem_nil, or_false] at hy
        rcases hy with rfl | rfl | rfl | rfl | rfl
        exacts [h2.1, h3.1, h4.1, h5.1, h6.1]
      · intro y hy
        simp only [List.mem_cons, List.not_mem_nil, or_false] at hy
        rcases hy with rfl | rfl | rfl | rfl
        exacts [h7.1, h8.1, h9.1, h10.1]
  · refine ⟨.cons ⟨hsh _, hsh _⟩ .nil, .cons (.cons (en h1) .nil) .nil, ⟨.cons (hsh _) .nil, hsh 1, .cons ⟨?_, ?_, en h11⟩ .nil,
      hsh 5, hte _, hte _⟩, ?_, ?_, rfl, rfl⟩
    · exact .cons (en h2) (.cons (en h3) (.cons (en h4) (.cons (en h5) (.cons (en h6) .nil))))
    · exact .cons (en h7) (.cons (en h8) (.cons (en h9) (.cons (en h10) .nil)))
    · intro l hl; exact List.mem_singleton.1 hl
    · intro vk hvk; rw [List.mem_singleton.1 hvk]; rfl
  · intro m
    have hx : x.felt c.val = 1 := by
      have : x.felt c.val = (((1 : ZMod p_ed377).val : ℕ) : ZMod p_fq377) := en h1
      rw [this, ZMod.val_one]; exact Nat.cast_one
    have hr : ∀ n, ptVals c.val (List.replicate n (0, 1)) =
        ((List.replicate n [0, 1]).flatten).map fun n : ℕ => (n : ZMod p_fq377) := by
      intro n
      induction n with
      | zero => rfl
      | succ n ih =>
        unfold ptVals at ih ⊢
        simp only [List.replicate_succ, List.flatMap_cons, List.flatten_cons, List.map_append, ih, v0, v1, List.map_cons,
          List.map_nil, Nat.cast_zero, Nat.cast_one]
    simp only [dataOf, vkVals, numbers, List.zip_cons_cons, List.zip_nil_left, List.flatMap_cons, List.flatMap_nil, List.append_nil,
      List.flatten_cons, List.flatten_nil, hr, List.map_append, List.map_cons, List.map_nil, hx, Nat.cast_one]

theorem bits377 : modulusBits p_fq377 = 377 := by decide +kernel
theorem bits253 : modulusBits p_ed377 = 253 := by decide +kernel

/-- the parameters with lookups of 8 bits -/
theorem I377_params8 : Params I377 p_ed377 8 :=
  ⟨⟨ModArith.r377_mulOK.small, ModArith.r377_mulOK.tpm, ModArith.r377_mulOK.pos, by decide, ModArith.r377_mulOK.mpos, by norm_num,
    by decide +kernel⟩, rfl, rfl, ModArith.r377_num, by decide +kernel⟩

theorem hash377 : ∃ f : Vec (ZMod p_fq377) → Vec (ZMod p_fq377), HashOk fq377 f :=
  SchnorrCircuit.perm_exists ⟨p_fq377, fq377⟩ (by simp [Rescue.shipped])

/-- the hashes of the examples -/
def h0 : ℕ := 40230730218810782706286230736550873332338551819238529322689366003779677044728576262670759022948872226463749957507

theorem big : 2 ^ 248 ≤ p_ed377 := by decide +kernel

theorem h56 : hashNat tS [1, 5] 1 % p_fq377 % 2 ^ 248 ≠ hashNat tS [1, 6] 1 % p_fq377 % 2 ^ 248 := by decide +kernel

theorem h0_eq : hashNat tN [] 1 = h0 := by decide +kernel

theorem msg5 : messageElems p_fq377 [5] = .ok ([1, 5].map fun n : ℕ => (n : ZMod p_fq377)) := by decide +kernel
theorem msg6 : messageElems p_fq377 [6] = .ok ([1, 6].map fun n : ℕ => (n : ZMod p_fq377)) := by decide +kernel

theorem val_hash {h : ℕ} (hlt : h < p_fq377) : ((h : ℕ) : ZMod p_fq377).val = h := ZMod.val_natCast_of_lt hlt

/-- **C81**, the shipped hash: for these keys and this proof the circuit the code builds has a satisfying assignment in
which `β` is not the native challenge. -/
theorem C81_alias_counterexample :
    ∃ (f : Vec (ZMod p_fq377) → Vec (ZMod p_fq377)) (c : Circ p_fq377) (vks : List (VkVar p_ed377))
      (pis : List (List (FpElemVar p_fq377))) (b : ProofVar p_fq377),
      HashOk fq377 f ∧ Ready 16 c ∧ checkSat c [] = .ok () ∧ Exist I377 c vks pis b ∧
      Input tE c.val vks pis b [tK tN] [[1]] (tB tN) ∧
      ∃ r c' w β, challengesVars fq377 I377 vks pis b none c = .ok (r, c') ∧ checkSat c' [] = .ok () ∧ Sat c' [] w ∧
        (∀ v < c.numVars, w v = c.val v) ∧ Limbs I377 w r.1.β β ∧
        β ≠ (challenges (rescueOracle tE f) none [tK tN] [[1]] (tB tN)).β := by
  obtain ⟨f, hf⟩ := hash377
  obtain ⟨c, vks, pis, b, hR, hs, hE, hin, hD⟩ := setup tN I377_params (by norm_num) (by decide +kernel)
  obtain ⟨x, hx, hch, H⟩ := C81_alias_partial I377_params hf bits377 bits253 hR hs hE hin (e := none) rfl
  have hβ : x.β = ((h0 : ℕ) : ZMod p_fq377) := by
    rw [hx]
    exact (hash_nat hf (hD [])).trans (by rw [h0_eq])
  have hno : ∀ x : ZMod p_fq377, false = true → x.val + p_fq377 < 2 ^ 377 := fun _ h => by cases h
  obtain ⟨r, c', w, g1, g2, g3, g4, -, g5, g6⟩ := H ⟨true, false, false, false, false, false⟩
    ⟨fun _ => by rw [hβ, val_hash (by decide +kernel)]; decide +kernel, hno _, hno _, hno _, hno _, hno _⟩
  refine ⟨f, c, vks, pis, b, hf, hR, hs, hE, hin, r, c', w, _, g1, g2, g3, g4, g5.β, ?_⟩
  rw [hch]
  exact g6.1 rfl

/-- **C81**, lookups of 8 bits: `β` can be the native challenge plus `2^248`. -/
theorem C81_short_range_counterexample :
    ∃ (f : Vec (ZMod p_fq377) → Vec (ZMod p_fq377)) (c : Circ p_fq377) (vks : List (VkVar p_ed377))
      (pis : List (List (FpElemVar p_fq377))) (b : ProofVar p_fq377),
      HashOk fq377 f ∧ Ready 8 c ∧ checkSat c [] = .ok () ∧ Exist I377 c vks pis b ∧
      Input tE c.val vks pis b [tK tN] [[1]] (tB tN) ∧
      ∃ r c' w, challengesVars fq377 I377 vks pis b none c = .ok (r, c') ∧ checkSat c' [] = .ok () ∧ Sat c' [] w ∧
        (∀ v < c.numVars, w v = c.val v) ∧
        Limbs I377 w r.1.β ((challenges (rescueOracle tE f) none [tK tN] [[1]] (tB tN)).β + 2 ^ 248) := by
  obtain ⟨f, hf⟩ := hash377
  obtain ⟨c, vks, pis, b, hR, hs, hE, hin, hD⟩ := setup tN I377_params8 (by norm_num) (by decide +kernel)
  obtain ⟨x, hx, hch, H⟩ := C81_short_range_partial I377_params8 hf bits377 bits253 (by norm_num) hR hs hE hin (e := none) rfl
  have hβ : x.β = ((h0 : ℕ) : ZMod p_fq377) := by
    rw [hx]
    exact (hash_nat hf (hD [])).trans (by rw [h0_eq])
  have hno : ∀ x : ZMod p_fq377, x.val % 2 ^ 248 + 0 * 2 ^ 248 < p_ed377 ∧ 0 ≤ x.val / 2 ^ 248 := fun x => by
    have h1 : x.val % 2 ^ 248 < 2 ^ 248 := Nat.mod_lt _ (by positivity)
    have h2 : 2 ^ 248 ≤ p_ed377 := by decide +kernel
    omega
  obtain ⟨r, c', w, g1, g2, g3, g4, -, g5⟩ := H ⟨1, 0, 0, 0, 0, 0⟩
    ⟨by show x.β.val % 2 ^ 248 + 1 * 2 ^ 248 < p_ed377 ∧ 1 ≤ x.β.val / 2 ^ 248; rw [hβ, val_hash (by decide +kernel)]; decide +kernel, hno _, hno _, hno _, hno _, hno _⟩
  refine ⟨f, c, vks, pis, b, hf, hR, hs, hE, hin, r, c', w, g1, g2, g3, g4, ?_⟩
  rw [hch]
  have := g5.β
  simpa [chal, Six.map] using this

theorem low_ne {p Q a b : ℕ} [NeZero p] (hQ : 2 ^ 248 ≤ Q) (h : a % p % 2 ^ 248 ≠ b % p % 2 ^ 248) :
    low Q (a : ZMod p) ≠ low Q (b : ZMod p) := by
  unfold low
  intro h'
  have h1 := congrArg ZMod.val h'
  have hlt : ∀ n : ℕ, n % 2 ^ 248 < Q := fun n => (Nat.mod_lt n (by positivity)).trans_le hQ
  rw [ZMod.val_natCast_of_lt (hlt _), ZMod.val_natCast_of_lt (hlt _), ZMod.val_natCast, ZMod.val_natCast] at h1
  exact h h1

/-- the native challenge does depend on the message -/
theorem message_matters {f : Vec (ZMod p_fq377) → Vec (ZMod p_fq377)} (hf : HashOk fq377 f) {c : Circ p_fq377}
    {vks : List (VkVar p_ed377)} {pis : List (List (FpElemVar p_fq377))} {b : ProofVar p_fq377}
    (hin : Input tE c.val vks pis b [tK tS] [[1]] (tB tS))
    (hD : ∀ m : List ℕ, (dataOf c.val (m.map fun n : ℕ => (n : ZMod p_fq377)) vks pis b).d0 =
        (numbers tS m 1).map fun n : ℕ => (n : ZMod p_fq377)) :
    (challenges (rescueOracle tE f) (some [5]) [tK tS] [[1]] (tB tS)).β ≠ (challenges (rescueOracle tE f) (some [6]) [tK tS] [[1]] (tB tS)).β := by
  have e5 : (challenges (rescueOracle tE f) (some [5]) [tK tS] [[1]] (tB tS)).β = low p_ed377 ((hashNat tS [1, 5] 1 : ℕ) : ZMod p_fq377) := by
    rw [native_challenges bits377 bits253 hin (extra := some [5]) msg5]
    exact congrArg (low p_ed377) (hash_nat hf (hD [1, 5]))
  have e6 : (challenges (rescueOracle tE f) (some [6]) [tK tS] [[1]] (tB tS)).β = low p_ed377 ((hashNat tS [1, 6] 1 : ℕ) : ZMod p_fq377) := by
    rw [native_challenges bits377 bits253 hin (extra := some [6]) msg6]
    exact congrArg (low p_ed377) (hash_nat hf (hD [1, 6]))
  rw [e5, e6]
  exact low_ne big h56

/-- **C81**, the message of the caller: the circuit built for the message `[5]` is satisfied with the challenges of the
message `[6]`, which are different. -/
theorem C81_message_counterexample :
    ∃ (f : Vec (ZMod p_fq377) → Vec (ZMod p_fq377)) (c : Circ p_fq377) (vks : List (VkVar p_ed377))
      (pis : List (List (FpElemVar p_fq377))) (b : ProofVar p_fq377),
      HashOk fq377 f ∧ Ready 16 c ∧ checkSat c [] = .ok () ∧ Exist I377 c vks pis b ∧
      Input tE c.val vks pis b [tK tS] [[1]] (tB tS) ∧
      (∃ r c' w, challengesVars fq377 I377 vks pis b (some [5]) c = .ok (r, c') ∧ checkSat c' [] = .ok () ∧ Sat c' [] w ∧
        (∀ v < c.numVars, w v = c.val v) ∧
        LimbsC I377 w r.1 (challenges (rescueOracle tE f) (some [6]) [tK tS] [[1]] (tB tS))) ∧
      (challenges (rescueOracle tE f) (some [5]) [tK tS] [[1]] (tB tS)).β ≠ (challenges (rescueOracle tE f) (some [6]) [tK tS] [[1]] (tB tS)).β := by
  obtain ⟨f, hf⟩ := hash377
  obtain ⟨c, vks, pis, b, hR, hs, hE, hin, hD⟩ := setup tS I377_params (by norm_num) (by decide +kernel)
  exact ⟨f, c, vks, pis, b, hf, hR, hs, hE, hin,
    C81_message_partial I377_params hf bits377 bits253 hR hs hE hin msg5 msg6 rfl, message_matters hf hin hD⟩

/-- the hypotheses of `C81_honest` and `C81_sound_partial` hold for these keys and this proof -/
example : ∃ (f : Vec (ZMod p_fq377) → Vec (ZMod p_fq377)) (c c' : Circ p_fq377) (vks : List (VkVar p_ed377))
      (pis : List (List (FpElemVar p_fq377))) (b : ProofVar p_fq377) (r : ChalVar p_fq377 × Draws),
      challengesVars fq377 I377 vks pis b (some [5]) c = .ok (r, c') ∧ checkSat c' [] = .ok () ∧
      Stores I377 c' r.1.β (challenges (rescueOracle tE f) (some [5]) [tK tN] [[1]] (tB tN)).β ∧
      ∀ w, Sat c' [] w → Input tE w vks pis b [tK tN] [[1]] (tB tN) → r.2.msg.map w = [1, 5] →
        ∃ x : Six (ZMod p_fq377), challenges (rescueOracle tE f) (some [5]) [tK tN] [[1]] (tB tN) = chal (x.map (low p_ed377)) ∧
          ∃ n : Six ℕ, Six.All₂ Cut x n ∧ Six.All₂ (Stands I377 p_ed377 w) (six r.1) n := by
  obtain ⟨f, hf⟩ := hash377
  obtain ⟨c, vks, pis, b, hR, hs, hE, hin, hD⟩ := setup tN I377_params (by norm_num) (by decide +kernel)
  obtain ⟨r, c', h1, h2, h3, -, -, -, h4, -⟩ := C81_honest I377_params hf bits377 bits253 hR hs hE hin (e := some [5]) msg5
  refine ⟨f, c, c', vks, pis, b, r, h1, h2, h4, fun w hw hi hm => ?_⟩
  obtain ⟨x, g1, g2, -⟩ := C81_sound_partial I377_params hf bits377 bits253 (by norm_num) (by norm_num) (by norm_num) hR hE
    (e := some [5]) msg5 h1 hw hi (e' := some [5]) (by rw [hm]; exact msg5)
  exact ⟨x, g1, g2⟩

end Verif.Props.TranscriptCircuit
