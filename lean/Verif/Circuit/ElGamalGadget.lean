import Verif.Circuit.EccMul
import Verif.Circuit.RescueSpec
import Verif.Circuit.Glv
import Verif.Circuit.MsmLoop
import Verif.Circuit.EmulatedFns
import Verif.Sig.ElGamal

/-!
# Model of `elgamal/src/gadgets.rs`

An `EncKeyVars` is a point variable, an `ElGamalHybridCtxtVars` the pair of the point variable `ephemeral` and the
list of variables `symm_ctxts`. The scalar multiplication with a variable base, `variable_base_scalar_mul`, is
`Glv.variableBaseScalarMul`, which depends on the kind of circuit; everything after it is `encryptRest`.

The second half connects the symmetric part with the native `apply_counter_mode_stream` of `Verif/Sig/ElGamal.lean`.
-/

set_option linter.unusedSectionVars false

namespace Verif.Circuit

open Verif.Rescue (Vec Mat Consts PRP Good)

variable {p : ℕ}

/-- the loop over the blocks of `apply_counter_mode_stream_no_padding`, `gadgets.rs:94-114`; the four additions of
the inner loop are those of `addState` -/
def streamBlocks (K : Consts) (m : Mat (ZMod p)) (keys : List (Vec ℕ)) : List (Vec ℕ) → ℕ → Build p (List (Vec ℕ))
  | [], _ => pure []
  | s :: ss, ctr => do
    let stream ← prpWithRoundKeys K ⟨ctr, 0, 0, 0⟩ m keys
    let ctr' ← addConstant ctr 1
    let out ← addState s stream
    let rest ← streamBlocks K m keys ss ctr'
    pure (out :: rest)

/-- `apply_counter_mode_stream_no_padding`, `gadgets.rs:75-117`; `zero()` is variable `0` -/
def streamNoPadding (K : Consts) (key : Vec ℕ) (data : List (Vec ℕ)) : Build p (List (Vec ℕ)) := do
  let keys ← keySchedule K (PRP.default K).mds key (PRP.default K)
  streamBlocks K (PRP.default K).mds keys data 0

/-- the padding, `gadgets.rs:126-134` -/
def padVars (data : List ℕ) : List ℕ :=
  data ++ List.replicate (ElGamal.lenToNextMultiple data.length 4 - data.length) 0

/-- `chunks(STATE_SIZE)` and the states made of the chunks, `gadgets.rs:136-141`; `block[i]` of a shorter chunk is out
of bounds -/
def toStates : List ℕ → Build p (List (Vec ℕ))
  | a :: b :: c :: d :: rest => do
    let ss ← toStates rest
    pure (⟨a, b, c, d⟩ :: ss)
  | [] => pure []
  | _ => Build.fail .panic

/-- `apply_counter_mode_stream`, `gadgets.rs:119-160`. The loop at the end stops pushing after `len` variables. -/
def streamVars (K : Consts) (key : Vec ℕ) (data : List ℕ) : Build p (List ℕ) := do
  let states ← toStates (padVars data)
  let out ← streamNoPadding K key states
  pure ((out.flatMap Vec.elems).take data.length)

/-- `elgamal_encrypt` after the multiplication of the key, `gadgets.rs:206-221`; `gen` is `Affine::<P>::generator()` -/
def encryptRest [Fact p.Prime] (T : TE p) (gen : ZMod p × ZMod p) (K : Consts) (data : List ℕ) (r : ℕ)
    (shared : ℕ × ℕ) : Build p ((ℕ × ℕ) × List ℕ) := do
  let key ← rescuePermutation K ⟨shared.1, shared.2, 0, 0⟩
  let symm ← streamVars K key data
  let eph ← fixedBaseScalarMul T r gen
  pure (eph, symm)

/-- `elgamal_encrypt`, `gadgets.rs:199-222` -/
def elgamalEncrypt [Fact p.Prime] (T : TE p) (gen : ZMod p × ZMod p) (K : Consts) (pk : ℕ × ℕ) (data : List ℕ)
    (r : ℕ) : Build p ((ℕ × ℕ) × List ℕ) := do
  let shared ← Glv.variableBaseScalarMul T r pk
  encryptRest T gen K data r shared

/-- `create_enc_key_variable`, `gadgets.rs:224-228` -/
def createEncKeyVariable (pk : ZMod p × ZMod p) : Build p (ℕ × ℕ) := createPointVariable pk

/-- `create_variable` for every element, `gadgets.rs:236-240` -/
def createData : List (ZMod p) → Build p (List ℕ)
  | [] => pure []
  | x :: xs => do
    let v ← createVariable x
    let vs ← createData xs
    pure (v :: vs)

/-- `create_ciphertext_variable`, `gadgets.rs:230-245` -/
def createCiphertextVariable (eph : ZMod p × ZMod p) (data : List (ZMod p)) : Build p ((ℕ × ℕ) × List ℕ) := do
  let e ← createPointVariable eph
  let d ← createData data
  pure (e, d)

/-! ## The native functions on lists -/

/-- a state from a list of four elements -/
def vecOf (l : List (ZMod p)) : Vec (ZMod p) := ⟨l.getD 0 0, l.getD 1 0, l.getD 2 0, l.getD 3 0⟩

/-- `Permutation::default().eval`, on lists -/
def evalList (K : Consts) (l : List (ZMod p)) : List (ZMod p) :=
  (((Rescue.Permutation.default K).eval K (vecOf l)).getD Rescue.zeroVec).elems

/-- `prp.prp_with_round_keys(&prp.key_schedule(key), ·)` for the default cipher, on lists -/
def prpList (K : Consts) (key l : List (ZMod p)) : List (ZMod p) :=
  ((Rescue.prp K (PRP.default K) (vecOf key) (vecOf l)).getD Rescue.zeroVec).elems

theorem vecOf_elems (v : Vec (ZMod p)) : vecOf v.elems = v := rfl

/-! ## Specifications -/

theorem toStates_ok (n : ℕ) : ∀ (l : List ℕ), l.length = 4 * n → ∀ c : Circ p, ∃ ss : List (Vec ℕ),
    (toStates l : Build p _) c = .ok (ss, c) ∧ ss.flatMap Vec.elems = l ∧ ss.length = n := by
  induction n with
  | zero =>
    intro l hl c
    have : l = [] := List.length_eq_zero_iff.1 (by omega)
    subst this
    exact ⟨[], rfl, rfl, rfl⟩
  | succ n ih =>
    intro l hl c
    obtain _ | ⟨a, _ | ⟨b, _ | ⟨d, _ | ⟨e, rest⟩⟩⟩⟩ := l
    · simp at hl
    · simp at hl; omega
    · simp at hl; omega
    · simp at hl; omega
    · obtain ⟨ss, h1, h2, h3⟩ := ih rest (by simp at hl; omega) c
      refine ⟨⟨a, b, d, e⟩ :: ss, ?_, ?_, by simp [h3]⟩
      · rw [toStates, bind_of_ok h1]; rfl
      · simp [h2, Vec.elems]

theorem padVars_spec (data : List ℕ) : ∃ n, (padVars data).length = 4 * n ∧ data.length ≤ 4 * n ∧
    ∀ w : ℕ → ZMod p, w 0 = 0 → (padVars data).map w = ElGamal.padWithZeros (data.map w) 4 := by
  have h : data.length ≤ ElGamal.lenToNextMultiple data.length 4 ∧ ElGamal.lenToNextMultiple data.length 4 =
      4 * (ElGamal.lenToNextMultiple data.length 4 / 4) := by
    unfold ElGamal.lenToNextMultiple
    split <;> omega
  refine ⟨ElGamal.lenToNextMultiple data.length 4 / 4, ?_, ?_, ?_⟩
  · unfold padVars
    rw [List.length_append, List.length_replicate]; omega
  · omega
  · intro w h0
    unfold padVars ElGamal.padWithZeros
    simp only [List.map_append, List.map_replicate, h0, List.length_map]
    rw [List.take_of_length_le (by simpa using h.1)]

variable [Fact p.Prime]

theorem elems_map (v : Vec ℕ) (w : ℕ → ZMod p) : v.elems.map w = (v.map w).elems := rfl

theorem streamBlocks_spec {K : Consts} (hA : K.A = 5 ∨ K.A = 11) (hg : Good p K) {A : Type}
    (N : ElGamal.Params (ZMod p) A) (hN : N.prp = prpList K) (keys : List (Vec ℕ))
    (hk : keys.length = 2 * Rescue.rounds + 1) (ss : List (Vec ℕ)) :
    ∀ {c : Circ p} (_ : WF c) (ctr : ℕ),
    Spec (streamBlocks K (PRP.default K).mds keys ss ctr) c
      (ctr < c.numVars ∧ (∀ k ∈ keys, InS k c) ∧ ∀ s ∈ ss, InS s c)
      (fun vs c' => vs.length = ss.length ∧ ∀ v ∈ vs, InS v c')
      (fun vs w => ∀ (key : Vec (ZMod p)) (idx : ℕ),
        Rescue.keySchedule K (PRP.default K) key = some (keys.map (Vec.map w)) → w ctr = (idx : ZMod p) →
        (vs.flatMap Vec.elems).map w =
          ElGamal.streamLoop N key.elems 0 .encrypt ss.length idx ((ss.flatMap Vec.elems).map w)) := by
  induction ss with
  | nil =>
    intro c hc ctr
    exact Spec.pure hc ⟨rfl, by simp⟩ (fun w _ _ key idx _ _ => rfl)
  | cons s ss ih =>
    intro c hc ctr
    unfold streamBlocks
    refine Spec.bind (prpWithRoundKeys_spec hc hA hg (PRP.default K) keys hk ⟨ctr, 0, 0, 0⟩) ?_ hc ?_
    · rintro ⟨h1, h2, -⟩ - -
      exact ⟨⟨h1, hc.z, hc.z, hc.z⟩, h2⟩
    rintro st c1 e1 hst
    refine Spec.bind (addConstant_spec e1.wf ctr 1) (fun h _ _ => e1.lt h.1.1) e1.wf ?_
    rintro ctr' c2 e2 hctr
    refine Spec.bind (addState_spec e2.wf s st) ?_ e2.wf ?_
    · rintro ⟨⟨⟨-, -, h3⟩, -⟩, -⟩ - -
      exact ⟨(h3 s (by simp)).ext (e1.trans e2), hst.ext e2⟩
    rintro o c3 e3 ho
    have e := (e1.trans e2).trans e3
    refine Spec.bind (ih e3.wf ctr') ?_ e3.wf ?_
    · rintro ⟨⟨⟨⟨-, h2, h3⟩, -⟩, -⟩, -⟩ - -
      exact ⟨e3.lt hctr, fun k hk' => (h2 k hk').ext e, fun t ht => (h3 t (by simp [ht])).ext e⟩
    rintro rest c4 e4 ⟨hl, hr⟩
    refine Spec.pure e4.wf ⟨by simp [hl], ?_⟩ ?_
    · intro v hv
      rcases List.mem_cons.1 hv with rfl | hv
      · exact ho.ext e4
      · exact hr v hv
    · intro w z0 _ g4 g3 g2 g1 key idx hks hctrv
      have g4' := g4 key (idx + 1) hks (by rw [g2, hctrv]; push_cast; rfl)
      have hstream : N.prp key.elems [(0 : ZMod p) + (idx : ZMod p), 0, 0, 0] = (st.map w).elems := by
        rw [hN]
        unfold prpList
        rw [vecOf_elems]
        have : (vecOf [(0 : ZMod p) + (idx : ZMod p), 0, 0, 0]) = Vec.map w ⟨ctr, 0, 0, 0⟩ := by
          simp [vecOf, Vec.map, z0, hctrv]
        rw [this]
        simp only [Rescue.prp, hks, g1]
        rfl
      simp only [List.flatMap_cons, List.map_append, List.length_cons, ElGamal.streamLoop, elems_map, g3, g4']
      have htake : ((s.map w).elems ++ (ss.flatMap Vec.elems).map w).take ElGamal.stateSize = (s.map w).elems := rfl
      have hdrop : ((s.map w).elems ++ (ss.flatMap Vec.elems).map w).drop ElGamal.stateSize =
          (ss.flatMap Vec.elems).map w := rfl
      rw [htake, hdrop]
      refine congrArg₂ (· ++ ·) ?_ rfl
      simp only [ElGamal.roundFn, hstream]
      rfl

theorem streamVars_spec {K : Consts} (hA : K.A = 5 ∨ K.A = 11) (hg : Good p K)
    (hk : K.keyInjection.length = 2 * Rescue.rounds) {A : Type} (N : ElGamal.Params (ZMod p) A)
    (hN : N.prp = prpList K) {c : Circ p} (hc : WF c) (key : Vec ℕ) (data : List ℕ) :
    Spec (streamVars K key data) c (InS key c ∧ ∀ v ∈ data, v < c.numVars)
      (fun vs c' => vs.length = data.length ∧ ∀ v ∈ vs, v < c'.numVars)
      (fun vs w => vs.map w = ElGamal.applyStream N (key.map w).elems (data.map w) 0 .encrypt) := by
  obtain ⟨n, hn1, hn2, hn3⟩ := padVars_spec (p := p) data
  obtain ⟨ss, h1, h2, h3⟩ := toStates_ok (p := p) n (padVars data) hn1 c
  have hmem : (∀ v ∈ data, v < c.numVars) → ∀ s ∈ ss, InS s c := by
    intro h s hs
    have : ∀ v ∈ s.elems, v < c.numVars := by
      intro v hv
      have : v ∈ padVars data := by rw [← h2]; exact List.mem_flatMap.2 ⟨s, hs, hv⟩
      unfold padVars at this
      rcases List.mem_append.1 this with h' | h'
      · exact h v h'
      · rw [(List.mem_replicate.1 h').2]; exact hc.z
    exact ⟨this _ (by simp [Vec.elems]), this _ (by simp [Vec.elems]), this _ (by simp [Vec.elems]),
      this _ (by simp [Vec.elems])⟩
  unfold streamVars
  refine Spec.of_eq h1 ?_
  unfold streamNoPadding
  rw [build_bind_assoc]
  refine Spec.bind (keySchedule_spec hc hA hg (PRP.default K) (by simpa [PRP.default] using hk) key)
    (fun h _ _ => h.1) hc ?_
  rintro keys c1 e1 ⟨hl, hkeys⟩
  refine Spec.bind (streamBlocks_spec hA hg N hN keys hl ss e1.wf 0) ?_ e1.wf ?_
  · rintro ⟨⟨-, hd⟩, -⟩ - -
    exact ⟨e1.wf.z, hkeys, fun s hs => (hmem hd s hs).ext e1⟩
  rintro out c2 e2 ⟨hlen, hout⟩
  have hflat : (out.flatMap Vec.elems).length = 4 * n := by
    have : ∀ l : List (Vec ℕ), (l.flatMap Vec.elems).length = 4 * l.length := by
      intro l
      induction l with
      | nil => rfl
      | cons x xs ih => simp only [List.flatMap_cons, List.length_append, ih, List.length_cons]; simp [Vec.elems]; ring
    rw [this, hlen, h3]
  refine Spec.pure e2.wf ⟨by rw [List.length_take, hflat]; omega, ?_⟩ ?_
  · intro v hv
    obtain ⟨s, hs, hv⟩ := List.mem_flatMap.1 (List.mem_of_mem_take hv)
    obtain ⟨i1, i2, i3, i4⟩ := hout s hs
    simp only [Vec.elems, List.mem_cons, List.not_mem_nil, or_false] at hv
    rcases hv with rfl | rfl | rfl | rfl <;> assumption
  · intro w z0 _ g2 g1
    have g := g2 (key.map w) 0 g1 (by rw [z0]; simp)
    rw [List.map_take, g, h2, hn3 w z0, h3]
    unfold ElGamal.applyStream
    simp only [ElGamal.stateSize, List.length_map]
    have : (ElGamal.padWithZeros (data.map w) 4).length = 4 * n := by
      rw [← hn3 w z0, List.length_map, hn1]
    rw [this, Nat.mul_div_cancel_left n (by norm_num)]

theorem encryptRest_spec (hp : p ≠ 2) {K : Consts} (hA : K.A = 5 ∨ K.A = 11) (hg : Good p K)
    (hk : K.keyInjection.length = 2 * Rescue.rounds) (hpk : K.permRoundKeys.length = 2 * Rescue.rounds + 1)
    {T : TE p} {E : EdGroup (ZMod p)} (hE : OnTE T E) (h0 : 0 < fixedBits T) (hb : fixedBits T ≤ modulusBits p)
    (N : ElGamal.Params (ZMod p) E.Pt) (hN : N.prp = prpList K) (hNe : N.eval = evalList K) (G : E.Pt)
    {c : Circ p} (hc : WF c) (data : List ℕ) (r : ℕ) (shared : ℕ × ℕ) :
    Spec (encryptRest T G.1 K data r shared) c
      ((PIn c shared ∧ (∀ v ∈ data, v < c.numVars) ∧ r < c.numVars) ∧ (c.val r).val < 2 ^ fixedBits T)
      (fun v c' => (PIn c' v.1 ∧ v.2.length = data.length ∧ ∀ x ∈ v.2, x < c'.numVars))
      (fun v w => (w r).val < 2 ^ fixedBits T ∧ ptAt w v.1 = ((w r).val • G).1 ∧
        v.2.map w = ElGamal.applyStream N (N.eval [w shared.1, w shared.2, 0, 0]) (data.map w) 0 .encrypt) := by
  unfold encryptRest
  refine Spec.bind (rescuePermutation_spec hc hA hg hpk ⟨shared.1, shared.2, 0, 0⟩)
    (fun h _ _ => ⟨h.1.1.1, h.1.1.2, hc.z, hc.z⟩) hc ?_
  rintro key c1 e1 hkey
  refine Spec.bind (streamVars_spec hA hg hk N hN e1.wf key data)
    (fun h _ _ => ⟨hkey, fun v hv => e1.lt (h.1.1.2.1 v hv)⟩) e1.wf ?_
  rintro symm c2 e2 ⟨hl, hs⟩
  refine Spec.bind (fixedBaseScalarMul_spec hp e2.wf hE hb r G) ?_ e2.wf ?_
  · rintro ⟨⟨⟨⟨-, -, h3⟩, h4⟩, -⟩, -⟩ - -
    exact ⟨e2.lt (e1.lt h3), h0, by rw [(e1.trans e2).val r h3]; exact h4⟩
  rintro eph c3 e3 heph
  refine Spec.pure e3.wf ⟨heph, hl, fun x hx => e3.lt (hs x hx)⟩ ?_
  rintro w z0 - ⟨g3, g3'⟩ g2 g1
  refine ⟨g3, g3', ?_⟩
  rw [g2]
  have : N.eval [w shared.1, w shared.2, 0, 0] = (key.map w).elems := by
    rw [hNe]
    unfold evalList
    have hv : (vecOf [w shared.1, w shared.2, 0, 0]) = Vec.map w ⟨shared.1, shared.2, 0, 0⟩ := by
      simp [vecOf, Vec.map, z0]
    rw [hv, g1]
    rfl
  rw [this]

/-! ## Fixed shape -/

theorem prpWithRoundKeys_rel (K : Consts) (s : Vec ℕ) (m : Mat (ZMod p)) (keys : List (Vec ℕ)) :
    Rel (prpWithRoundKeys K s m keys) (prpWithRoundKeys K s m keys) := by
  unfold prpWithRoundKeys
  split
  · exact Rel.failL _ _
  · split
    · exact Rel.failL _ _
    · exact Rel.bind (addState_rel _ _) (fun _ => varKeysLoop_rel _ _ _ _ _)

theorem streamBlocks_rel (K : Consts) (m : Mat (ZMod p)) (keys ss : List (Vec ℕ)) : ∀ ctr,
    Rel (streamBlocks K m keys ss ctr) (streamBlocks K m keys ss ctr) := by
  induction ss with
  | nil => intro _; exact Rel.pure _
  | cons s ss ih =>
    intro ctr
    exact Rel.bind (prpWithRoundKeys_rel _ _ _ _) fun _ => Rel.bind (addConstant_rel _ _) fun _ =>
      Rel.bind (addState_rel _ _) fun _ => Rel.bind (ih _) fun _ => Rel.pure _

theorem toStates_rel (n : ℕ) : ∀ l : List ℕ, l.length ≤ n → Rel (toStates l : Build p _) (toStates l) := by
  induction n with
  | zero =>
    intro l hl
    have : l = [] := List.length_eq_zero_iff.1 (by omega)
    subst this
    exact Rel.pure _
  | succ n ih =>
    intro l hl
    obtain _ | ⟨a, _ | ⟨b, _ | ⟨d, _ | ⟨e, rest⟩⟩⟩⟩ := l
    · exact Rel.pure _
    · exact Rel.failL _ _
    · exact Rel.failL _ _
    · exact Rel.failL _ _
    · exact Rel.bind (ih rest (by simp at hl; omega)) fun _ => Rel.pure _

theorem streamVars_rel (K : Consts) (key : Vec ℕ) (data : List ℕ) :
    Rel (streamVars K key data : Build p _) (streamVars K key data) := by
  unfold streamVars streamNoPadding keySchedule
  exact Rel.bind (toStates_rel _ _ le_rfl) fun _ => Rel.bind (Rel.bind (Rel.bind (addConstantState_rel _ _) fun _ =>
    Rel.bind (keyScheduleLoop_rel _ _ _ _ _) fun _ => Rel.pure _) fun _ => streamBlocks_rel _ _ _ _ _) fun _ => Rel.pure _

theorem encryptRest_rel (T : TE p) (G : ZMod p × ZMod p) (K : Consts) (data : List ℕ) (r : ℕ) (shared : ℕ × ℕ) :
    Rel (encryptRest T G K data r shared) (encryptRest T G K data r shared) := by
  unfold encryptRest
  exact Rel.bind (rescuePermutation_rel _ _) fun _ => Rel.bind (streamVars_rel _ _ _) fun _ =>
    Rel.bind (fixedBaseScalarMul_rel _ _ _) fun _ => Rel.pure _

end Verif.Circuit
