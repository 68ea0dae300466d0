import Verif.Circuit.VerifierInput
import Verif.Props.VerifierPoints
import Verif.Props.VerifierPointsEx

/-!
# C88: keys, public inputs and proofs stored in the verifier circuit
-/

set_option linter.unusedSectionVars false

namespace Verif.Props.VerifierInput

open Verif.Circuit Verif.Circuit.VerifierPoly Verif.Circuit.TranscriptVar Verif.Circuit.VerifierAgg Verif.Circuit.VerifierInput
open Verif.Props.VerifierCircuit Verif.Props.TranscriptCircuit Verif.Props.VerifierPoints Verif.Plonk Verif.Pcs Verif.Conv
open Verif.Props.Msm
open Verif.Rescue (Vec Consts)

variable {p Q k : ℕ} [hp : Fact p.Prime] [hQ : Fact Q.Prime] {G G2 G' G2' : Type} {I : Info p} {c : Circ p}
  {te : G → Option (ZMod p × ZMod p)} {te' : G' → Option (ZMod p × ZMod p)} {VK : List (VKey (ZMod Q) G G2)}
  {VK' : List (VKey (ZMod Q) G' G2')} {PI PI' : List (ZMod Q)} {B : BProof (ZMod Q) G} {B' : BProof (ZMod Q) G'}

/-! ## Specification -/

/-- every commitment has coordinates -/
structure Defined (te : G → Option (ZMod p × ZMod p)) (VK : List (VKey (ZMod Q) G G2)) (B : BProof (ZMod Q) G) : Prop where
  sigmas : ∀ vk ∈ VK, ∀ g ∈ vk.sigmas, te g ≠ none
  selectors : ∀ vk ∈ VK, ∀ g ∈ vk.selectors, te g ≠ none
  wires : ∀ l ∈ B.wires, ∀ g ∈ l, te g ≠ none
  prodPerm : ∀ g ∈ B.prodPerm, te g ≠ none
  quot : ∀ g ∈ B.quot, te g ≠ none
  opening : te B.opening ≠ none
  shifted : te B.shifted ≠ none

/-- no lookups, as many proofs as keys -/
structure NoLookups (VK : List (VKey (ZMod Q) G G2)) (B : BProof (ZMod Q) G) : Prop where
  proofs : ∀ l ∈ B.lookups, l = none
  keys : ∀ vk ∈ VK, vk.lookup = none
  len : VK.length = B.prodPerm.length

/-- keys, shared public inputs and a proof in an assignment: the coordinates of the commitments, numbers for the evaluations
and inputs with limbs in range, and the other fields of the keys -/
structure Holds (I : Info p) (te : G → Option (ZMod p × ZMod p)) (w : ℕ → ZMod p) (vks : List (VkVar Q)) (pi : List (FpElemVar p))
    (b : ProofVar p) (VK : List (VKey (ZMod Q) G G2)) (PI : List (ZMod Q)) (B : BProof (ZMod Q) G) : Prop where
  keys : List.Forall₂ (ShowsVk te w) vks VK
  fields : List.Forall₂ (fun (x : VkVar Q) (y : VKey (ZMod Q) G G2) =>
    x.merged = y.merged ∧ x.domSize = y.domSize ∧ x.numInputs = y.numInputs ∧ x.k = y.k) vks VK
  inputs : List.Forall₂ (Enc w) pi PI
  proof : ShowsProof te w b B
  smallPi : ∀ x ∈ pi, Small I w x
  smallEvals : ∀ e ∈ b.evals, SmallE I w e

/-- the same numbers of commitments and evaluations, and the same fields of the keys that are not commitments; the opening
keys, the lookup keys and the lookup proofs may differ -/
structure Like (VK : List (VKey (ZMod Q) G G2)) (PI : List (ZMod Q)) (B : BProof (ZMod Q) G)
    (VK' : List (VKey (ZMod Q) G' G2')) (PI' : List (ZMod Q)) (B' : BProof (ZMod Q) G') : Prop where
  keys : List.Forall₂ (fun (a : VKey (ZMod Q) G G2) (b : VKey (ZMod Q) G' G2') =>
    a.sigmas.length = b.sigmas.length ∧ a.selectors.length = b.selectors.length ∧ a.merged = b.merged ∧ a.domSize = b.domSize ∧
      a.numInputs = b.numInputs ∧ a.k = b.k) VK VK'
  inputs : PI.length = PI'.length
  wires : List.Forall₂ (fun (a : List G) (b : List G') => a.length = b.length) B.wires B'.wires
  prodPerm : B.prodPerm.length = B'.prodPerm.length
  evals : List.Forall₂ (fun (a b : Evals (ZMod Q)) => a.wires.length = b.wires.length ∧ a.sigmas.length = b.sigmas.length)
    B.evals B'.evals
  quot : B.quot.length = B'.quot.length

/-- the number two limbs stand for -/
def number (I : Info p) (w : ℕ → ZMod p) (x : FpElemVar p) : ℕ := (w x.v0).val + 2 ^ I.mod.m * (w x.v1).val

/-- the points of keys and of a proof -/
def allPoints (vks : List (VkVar Q)) (b : ProofVar p) : List (ℕ × ℕ) :=
  vks.flatMap (fun v => v.sigmas ++ v.selectors) ++ b.wires.flatten ++ b.prodPerm ++ b.quot ++ [b.opening, b.shifted]

/-- the elements of public inputs and of a proof -/
def allElems (pi : List (FpElemVar p)) (b : ProofVar p) : List (FpElemVar p) :=
  pi ++ b.evals.flatMap fun e => e.wires ++ e.sigmas ++ [e.permNext]

/-! ## Steps -/

theorem defined_keys (h : Defined te VK B) : ∀ vk ∈ VK, KeyOk te vk := fun vk hv => ⟨h.sigmas vk hv, h.selectors vk hv⟩

theorem defined_proof (h : Defined te VK B) : ProofOk te B := ⟨h.wires, h.prodPerm, h.quot, h.opening, h.shifted⟩

theorem forall₂_of_left {α β : Type} {R : α → β → Prop} {S : α → Prop} (hS : ∀ a b, R a b → S a) {l : List α} {m : List β}
    (h : List.Forall₂ R l m) : ∀ a ∈ l, S a := by
  induction h with
  | nil => simp
  | cons a _ ih =>
    intro x hx
    rcases List.mem_cons.1 hx with rfl | hx
    · exact hS _ _ a
    · exact ih x hx

theorem forall₂_of_right {α β : Type} {R : α → β → Prop} {S : β → Prop} (hS : ∀ a b, R a b → S b) {l : List α} {m : List β}
    (h : List.Forall₂ R l m) : ∀ b ∈ m, S b := by
  induction h with
  | nil => simp
  | cons a _ ih =>
    intro x hx
    rcases List.mem_cons.1 hx with rfl | hx
    · exact hS _ _ a
    · exact ih x hx

theorem ptsIn_of {ps : List (ℕ × ℕ)} {gs : List G} (h : List.Forall₂ (fun P g => HasPoint te g P c) ps gs) : PtsIn ps c :=
  forall₂_of_left (S := fun P : ℕ × ℕ => P.1 < c.numVars ∧ P.2 < c.numVars) (fun _ _ g => g.1) h

theorem shows_of {ps : List (ℕ × ℕ)} {gs : List G} (h : List.Forall₂ (fun P g => HasPoint te g P c) ps gs) :
    Shows te c.val ps gs := h.imp fun _ _ g => g.2

theorem var_of {H : Prop} {xs : List (FpElemVar p)} {as : List (ZMod Q)}
    (h : List.Forall₂ (fun x a => Hol H I.mod a x c) xs as) : ∀ x ∈ xs, Var I c x :=
  forall₂_of_left (fun _ _ g => ⟨g.1, g.2.1⟩) h

theorem hasAll_exist {r : List (VkVar Q) × List (FpElemVar p) × ProofVar p} (h : HasAll I.mod te VK PI B r c) (n : ℕ) :
    Exist I c r.1 (List.replicate n (r.2.1 ++ r.2.1)) r.2.2 where
  keys := forall₂_of_left (fun _ _ g => ⟨ptsIn_of g.selectors, ptsIn_of g.sigmas⟩) h.keys
  inputs := by
    intro l hl x hx
    rw [(List.mem_replicate.1 hl).2, List.mem_append, or_self] at hx
    exact var_of h.inputs x hx
  wires := forall₂_of_left (fun _ _ g => ptsIn_of g) h.proof.wires
  prodPerm := ptsIn_of h.proof.prodPerm
  evals := forall₂_of_left (fun _ _ g => ⟨var_of g.wires, var_of g.sigmas, ⟨g.permNext.1, g.permNext.2.1⟩⟩) h.proof.evals
  quot := ptsIn_of h.proof.quot
  opens := by
    intro P hP
    simp only [List.mem_cons, List.not_mem_nil, or_false] at hP
    rcases hP with rfl | rfl
    · exact h.proof.opening.1
    · exact h.proof.shifted.1

theorem enc_of_hol (hP : Params I Q k) {x : FpElemVar p} {a : ZMod Q} (h : Hol True I.mod a x c) : Enc c.val x a := by
  have h1 : x.tpm = ((2 ^ I.mod.m : ℕ) : ZMod p) := by
    rw [h.2.1.2, hP.mul.tpm]; push_cast; rfl
  obtain ⟨h2, h3⟩ := h.2.2 trivial
  have h4 : c.val x.v0 = ((a.val % 2 ^ I.mod.m : ℕ) : ZMod p) := by rw [← h2, ZMod.natCast_val, ZMod.cast_id]
  have h5 : c.val x.v1 = ((a.val / 2 ^ I.mod.m : ℕ) : ZMod p) := by rw [← h3, ZMod.natCast_val, ZMod.cast_id]
  unfold Enc
  rw [h1, h4, h5, ← Nat.cast_mul, ← Nat.cast_add, Nat.mod_add_div]

theorem hasAll_holds (hP : Params I Q k) {r : List (VkVar Q) × List (FpElemVar p) × ProofVar p}
    (h : HasAll I.mod te VK PI B r c) : Holds I te c.val r.1 r.2.1 r.2.2 VK PI B := by
  have en : ∀ {xs : List (FpElemVar p)} {as : List (ZMod Q)}, List.Forall₂ (fun x a => Hol True I.mod a x c) xs as →
      List.Forall₂ (Enc c.val) xs as := fun g => g.imp fun _ _ g => enc_of_hol hP g
  have sm : ∀ {xs : List (FpElemVar p)} {as : List (ZMod Q)}, List.Forall₂ (fun x a => Hol True I.mod a x c) xs as →
      ∀ x ∈ xs, Small I c.val x := fun g => forall₂_of_left (S := Small I c.val) (fun _ _ g => (hol_ew hP.par g).1) g
  refine ⟨h.keys.imp fun _ _ g => ⟨shows_of g.selectors, shows_of g.sigmas⟩, h.keys.imp fun _ _ g => ⟨g.merged, g.domSize, g.numInputs, g.k⟩,
    en h.inputs, ⟨h.proof.wires.imp fun _ _ g => shows_of g, shows_of h.proof.prodPerm, ?_, shows_of h.proof.quot,
      h.proof.opening.2, h.proof.shifted.2⟩, sm h.inputs, ?_⟩
  · exact h.proof.evals.imp fun _ _ g => ⟨en g.wires, en g.sigmas, enc_of_hol hP g.permNext⟩
  · exact forall₂_of_left (fun _ _ g => ⟨sm g.wires, sm g.sigmas, (hol_ew hP.par g.permNext).1⟩) h.proof.evals

theorem room_ext {N : ℕ} {c' : Circ p} (hc : Ready k c) (h : Room N c) (e : Ext c c') : Room N c' := by
  have h := room_tw hc h e le_rfl
  exact ⟨h.tables, h.room⟩

theorem ready_ext {c' : Circ p} (hc : Ready k c) (e : Ext c c') : Ready k c' := ⟨e.wf, hc.2.1.ext e, by rw [e.ultra, hc.2.2]⟩

/-! ## Keys, inputs and a proof are stored -/

/-- **C88**, honest prover: keys, public inputs and a proof whose commitments all have coordinates are stored in any circuit
with lookups; the circuit stays satisfied, and its assignment holds them. -/
theorem C88_honest (hP : Params I Q k) (hc : Ready k c) {pin : List (ZMod p)} (hs : checkSat c pin = .ok ()) (hd : Defined te VK B) :
    ∃ vks pi b c', store te I.m I.tpm VK PI B c = .ok ((vks, pi, b), c') ∧ checkSat c' pin = .ok () ∧ Ready k c' ∧
      (∀ i < c.numVars, c'.val i = c.val i) ∧ (∀ N, Room N c → Room N c') ∧
      Exist I c' vks (List.replicate vks.length (pi ++ pi)) b ∧ Holds I te c'.val vks pi b VK PI B := by
  have hs' := (checkSat_ok hc.1 pin).1 hs
  have sp := store_spec (te := te) (H := True) hP.par (hc.ctx hs') VK PI B (fun _ => defined_keys hd) fun _ => defined_proof hd
  obtain ⟨⟨vks, pi, b⟩, c', g, s⟩ := sp.complete trivial pin hs'
  obtain ⟨e, h, -⟩ := sp.sound _ _ g
  exact ⟨vks, pi, b, c', g, (checkSat_ok e.wf pin).2 s, ready_ext hc e, e.val, fun N h => room_ext hc h e,
    hasAll_exist h _, hasAll_holds hP h⟩

/-- **C88**, exactly these: if keys and a proof are stored then every commitment has coordinates. -/
theorem C88_defined (hP : Params I Q k) (hc : Ready k c) {r : List (VkVar Q) × List (FpElemVar p) × ProofVar p} {c' : Circ p}
    (h : store te I.m I.tpm VK PI B c = .ok (r, c')) : Defined te VK B := by
  obtain ⟨-, h, -⟩ := (store_spec (te := te) (H := False) hP.par hc.ctxF VK PI B False.elim False.elim).sound _ _ h
  have pts : ∀ {ps : List (ℕ × ℕ)} {gs : List G}, List.Forall₂ (fun P g => HasPoint te g P c') ps gs → ∀ g ∈ gs, te g ≠ none :=
    fun h => forall₂_of_right (fun _ _ g => by rw [g.2]; simp) h
  exact ⟨forall₂_of_right (fun _ _ g => pts g.sigmas) h.keys, forall₂_of_right (fun _ _ g => pts g.selectors) h.keys,
    forall₂_of_right (fun _ _ g => pts g) h.proof.wires, pts h.proof.prodPerm, pts h.proof.quot,
    by rw [h.proof.opening.2]; simp, by rw [h.proof.shifted.2]; simp⟩

/-- **C88**, fields: evaluations of a field with at least as many bits as the field of the circuit are refused. -/
theorem C88_fields {m : ℕ} {tpm : Option (ZMod p)} (h : modulusBits p ≤ modulusBits Q) (e : Evals (ZMod Q)) (c : Circ p) :
    evalsVarNew m tpm e c = .error .parameter := by
  unfold evalsVarNew
  rw [if_pos h]
  rfl

/-- **C88**, `to_vec`: the variables of a key, in the order of the commitments of the permutation and then of the selectors,
have the coordinates of the commitments of the key. -/
theorem C88_to_vec {vk : VKey (ZMod Q) G G2} {v : VkVar Q} {c' : Circ p} (hc : Ready k c) (h : vkVarNew te vk c = .ok (v, c')) :
    List.Forall₂ (fun i x => i < c'.numVars ∧ some (c'.val i) = x) (vkToVec v)
      ((vk.sigmas ++ vk.selectors).flatMap fun g => [(te g).map Prod.fst, (te g).map Prod.snd]) := by
  obtain ⟨-, h, -⟩ := (vkVarNew_spec (te := te) (H := False) vk False.elim hc.ctxF).sound _ _ h
  have key : ∀ {ps : List (ℕ × ℕ)} {gs : List G}, List.Forall₂ (fun P g => HasPoint te g P c') ps gs →
      List.Forall₂ (fun i x => i < c'.numVars ∧ some (c'.val i) = x) (ps.flatMap fun P => [P.1, P.2])
        (gs.flatMap fun g => [(te g).map Prod.fst, (te g).map Prod.snd]) := by
    intro ps gs h
    induction h with
    | nil => exact .nil
    | cons a _ ih =>
      rw [List.flatMap_cons, List.flatMap_cons]
      exact .cons ⟨a.1.1, by rw [a.2]; rfl⟩ (.cons ⟨a.1.2, by rw [a.2]; rfl⟩ ih)
  unfold vkToVec
  rw [List.flatMap_append]
  exact List.rel_append (key h.sigmas) (key h.selectors)

/-! ## The circuit does not depend on what is stored -/

theorem sameLen {α α' : Type} : ∀ {l : List α} {l' : List α'}, l.length = l'.length → SameLen l l'
  | [], [], _ => .nil
  | _ :: _, _ :: _, h => .cons trivial (sameLen (Nat.succ.inj h))
  | [], _ :: _, h => by cases h
  | _ :: _, [], h => by cases h

/-- **C88**, variable independence: keys, inputs and proofs of the same shape are stored in the same variables by the same
gates, whatever the conversions of commitments are. -/
theorem C88_uniform {m : ℕ} {tpm : Option (ZMod p)} (hl : Like VK PI B VK' PI' B') {c c1 c2 : Circ p}
    {r r' : List (VkVar Q) × List (FpElemVar p) × ProofVar p} (h : store te m tpm VK PI B c = .ok (r, c1))
    (h' : store te' m tpm VK' PI' B' c = .ok (r', c2)) : r = r' ∧ Same c1 c2 :=
  store_rel (hl.keys.imp fun _ _ g => ⟨sameLen g.1, sameLen g.2.1, g.2.2.1, g.2.2.2.1, g.2.2.2.2.1, g.2.2.2.2.2⟩) (sameLen hl.inputs)
    ⟨hl.wires.imp fun _ _ g => sameLen g, sameLen hl.prodPerm, hl.evals.imp fun _ _ g => ⟨sameLen g.1, sameLen g.2⟩, sameLen hl.quot⟩
    c c (Same.refl c) _ _ _ _ h h'

/-- **C88**, nothing is fixed: the circuit that stores keys, inputs and a proof is also satisfied by any others of the same
shape, with any coordinates, on the curve or not: what is stored is a witness. -/
theorem C88_free_counterexample (hP : Params I Q k) (hc : Ready k c) {pin : List (ZMod p)} (hs : checkSat c pin = .ok ())
    {vks : List (VkVar Q)} {pi : List (FpElemVar p)} {b : ProofVar p} {c1 : Circ p}
    (h : store te I.m I.tpm VK PI B c = .ok ((vks, pi, b), c1)) (hl : Like VK PI B VK' PI' B') (hd : Defined te' VK' B') :
    ∃ w, Sat c1 pin w ∧ (∀ i < c.numVars, w i = c.val i) ∧ Holds I te' w vks pi b VK' PI' B' := by
  obtain ⟨vks', pi', b', c2, h2, s2, -, a, -, -, hh⟩ := C88_honest (te := te') (PI := PI') hP hc hs hd
  obtain ⟨e, hsm⟩ := C88_uniform hl h h2
  obtain ⟨rfl, rfl, rfl⟩ : vks = vks' ∧ pi = pi' ∧ b = b' := by simpa using e
  have hw : WF c2 := ((store_spec (te := te') (H := False) hP.par hc.ctxF VK' PI' B' False.elim False.elim).sound _ _ h2).1.wf
  exact ⟨c2.val, hsm.symm.sat ((checkSat_ok hw pin).1 s2), a, hh⟩

/-- **C88**, numbers: the circuit that stores an element is also satisfied when the limbs hold a number that is that element
modulo `Q` but not below `Q`, if it has two limbs. The limbs stand for the element, but the native transcript, which hashes the
number below `Q`, does not hash the value of the limbs. -/
theorem C88_noncanonical_counterexample (hP : Params I Q k) (hc : Ready k c) {pin : List (ZMod p)} (hs : checkSat c pin = .ok ())
    (x : ZMod Q) {v : FpElemVar p} {c1 : Circ p} (h : storeElem I.m I.tpm x c = .ok (v, c1))
    (hx : x.val + Q < 2 ^ (2 * I.mod.m)) :
    ∃ w, Sat c1 pin w ∧ Small I w v ∧ number I w v = x.val + Q ∧ value Q I w v = x ∧ ¬ Enc w v x := by
  have hs' := (checkSat_ok hc.1 pin).1 hs
  have hwide : (2 : ℕ) ^ I.mod.m * 2 ^ I.mod.m ≤ p := by
    have h5 : (2 : ℕ) ^ I.mod.m * 2 ^ I.mod.m ≤ 2 ^ (2 * I.mod.m + k + 2) := by
      rw [← pow_add]; exact Nat.pow_le_pow_right (by norm_num) (by omega)
    exact h5.trans hP.wide
  have hpos : 0 < (2 : ℕ) ^ I.mod.m := by positivity
  generalize hn : x.val + Q = n at hx
  have hn2 : n < 2 ^ I.mod.m * 2 ^ I.mod.m := by rw [← pow_add, ← two_mul]; exact hx
  have hlo : n % 2 ^ I.mod.m < 2 ^ I.mod.m := Nat.mod_lt _ hpos
  have hhi : n / 2 ^ I.mod.m < 2 ^ I.mod.m := Nat.div_lt_of_lt_mul hn2
  have hle : (2 : ℕ) ^ I.mod.m ≤ p := le_trans (Nat.le_mul_of_pos_left _ hpos) hwide
  have v0 : ((n % 2 ^ I.mod.m : ℕ) : ZMod p).val = n % 2 ^ I.mod.m := ZMod.val_natCast_of_lt (hlo.trans_le hle)
  have v1 : ((n / 2 ^ I.mod.m : ℕ) : ZMod p).val = n / 2 ^ I.mod.m := ZMod.val_natCast_of_lt (hhi.trans_le hle)
  set e : FpElem p := ⟨((n % 2 ^ I.mod.m : ℕ) : ZMod p), ((n / 2 ^ I.mod.m : ℕ) : ZMod p), I.m, I.mod.tpm⟩ with he
  have sp := newFromFpElem_spec hc.1 hc.2.1 e I.m I.tpm
  obtain ⟨v', c2, g2, s2⟩ := sp.complete ⟨by rw [hc.2.2]; rfl, by rw [hP.m]; exact hP.par.mul.mpos, by rw [hP.m]; show _ < _; rw [v0]; exact hlo,
    by rw [hP.m]; show _ < _; rw [v1]; exact hhi⟩ pin hs'
  obtain ⟨e2, ⟨-, -, k3, k4, k5⟩, -⟩ := sp.sound _ _ g2
  have hrel : v = v' ∧ Same c1 c2 := by
    unfold storeElem at h
    obtain ⟨y, c0, h0, h3⟩ := bind_ok h
    have hc0 : c0 = c := by
      rcases switch_cases (p := p) (t := p) x with ⟨a, ha⟩ | ha
      · rw [ha] at h0; cases h0; rfl
      · rw [ha] at h0; cases h0
    subst hc0
    unfold newFromFieldElement at h3
    obtain ⟨e0, c0', h0', h4⟩ := bind_ok h3
    obtain ⟨rfl, -⟩ := liftE_ok h0'
    exact newFromFpElem_rel e0 e I.m I.tpm _ _ (Same.refl _) _ _ _ _ h4 g2
  obtain ⟨rfl, hsame⟩ := hrel
  have n0 : (c2.val v.v0).val = n % 2 ^ I.mod.m := by rw [k4]; exact v0
  have n1 : (c2.val v.v1).val = n / 2 ^ I.mod.m := by rw [k5]; exact v1
  have hsm : Small I c2.val v := ⟨by rw [n0]; exact hlo, by rw [n1]; exact hhi⟩
  have hnum : (c2.val v.v0).val + 2 ^ I.mod.m * (c2.val v.v1).val = n := by
    rw [n0, n1]; exact Nat.mod_add_div _ _
  refine ⟨c2.val, hsame.symm.sat s2, hsm, hnum, ?_, ?_⟩
  · unfold value
    rw [hnum, ← hn]
    push_cast
    rw [ZMod.natCast_self, add_zero, ZMod.natCast_val, ZMod.cast_id]
  · intro henc
    have h1 := num_of_enc hP (by rw [k3, hP.tpm]; rfl) henc hsm
    rw [hnum] at h1
    have := hQ.out.pos
    omega

/-! ## What a satisfying assignment holds -/

/-- **C88**, limbs: in every satisfying assignment the limbs of the public inputs and of the evaluations are in range. -/
theorem C88_limbs (hP : Params I Q k) (hc : Ready k c) {vks : List (VkVar Q)} {pi : List (FpElemVar p)} {b : ProofVar p} {c1 : Circ p}
    (h : store te I.m I.tpm VK PI B c = .ok ((vks, pi, b), c1)) {pin : List (ZMod p)} {w : ℕ → ZMod p} (hw : Sat c1 pin w) :
    (∀ x ∈ pi, Small I w x) ∧ ∀ e ∈ b.evals, SmallE I w e := by
  obtain ⟨-, -, h⟩ := (store_spec (te := te) (H := False) hP.par hc.ctxF VK PI B False.elim False.elim).sound _ _ h
  obtain ⟨h1, h2⟩ := h pin w hw
  have sm : ∀ {xs : List (FpElemVar p)} {as : List (ZMod Q)}, List.Forall₂ (fun v _ => v.Small I.mod w) xs as →
      ∀ x ∈ xs, Small I w x := fun g => forall₂_of_left (S := Small I w) (fun _ _ g => g) g
  exact ⟨sm h1, forall₂_of_left (fun _ _ g => ⟨sm g.wires, sm g.sigmas, g.permNext⟩) h2⟩

theorem exists_list {α β : Type} {R : α → β → Prop} : ∀ {l : List α}, (∀ a ∈ l, ∃ b, R a b) → ∃ m, List.Forall₂ R l m
  | [], _ => ⟨[], .nil⟩
  | a :: l, h => by
    obtain ⟨b, hb⟩ := h a (by simp)
    obtain ⟨m, hm⟩ := exists_list (l := l) fun x hx => h x (by simp [hx])
    exact ⟨b :: m, .cons hb hm⟩

/-- an element for every element of the first list that is related to it and to the element of the second list beside it -/
theorem exists_list₂ {α β γ : Type} {R : α → β → Prop} {S : α → β → γ → Prop} {l : List α} {m : List β} (h : List.Forall₂ R l m)
    (hS : ∀ a ∈ l, ∀ b, R a b → ∃ c, S a b c) : ∃ n, List.Forall₂ (fun a c => ∃ b, S a b c) l n ∧ List.Forall₂ (fun b c => ∃ a, S a b c) m n := by
  induction h with
  | nil => exact ⟨[], .nil, .nil⟩
  | @cons a b l m h1 _ ih =>
    obtain ⟨c, hc⟩ := hS a (by simp) b h1
    obtain ⟨n, h2, h3⟩ := ih fun x hx => hS x (by simp [hx])
    exact ⟨c :: n, .cons ⟨b, hc⟩ h2, .cons ⟨a, hc⟩ h3⟩

theorem enc_of_number (hP : Params I Q k) {w : ℕ → ZMod p} {x : FpElemVar p} (ht : x.tpm = I.mod.tpm) (h : number I w x < Q) :
    Enc w x ((number I w x : ℕ) : ZMod Q) := by
  have h1 : x.tpm = ((2 ^ I.mod.m : ℕ) : ZMod p) := by
    rw [ht, hP.mul.tpm]; push_cast; rfl
  unfold Enc
  rw [ZMod.val_natCast_of_lt h, h1]
  unfold number
  push_cast
  simp only [ZMod.natCast_val, ZMod.cast_id', id]

/-- the part of the fields of keys and proofs that is not stored is the same -/
def SameRest (VK VK' : List (VKey (ZMod Q) G G2)) (B B' : BProof (ZMod Q) G) : Prop :=
  List.Forall₂ (fun (a b : VKey (ZMod Q) G G2) => a.openKey = b.openKey ∧ a.lookup = b.lookup) VK VK' ∧ B.lookups = B'.lookups

/-- **C88**, any assignment: in every satisfying assignment whose points are coordinates of commitments and whose limbs hold
numbers below `Q`, keys, public inputs and a proof of the same shape as those given are held. That they are the ones given, that
the points are coordinates of commitments and that the numbers are below `Q` is not checked: see `C88_free_counterexample` and
`C88_noncanonical_counterexample`. -/
theorem C88_sound_partial (hP : Params I Q k) (hc : Ready k c) {vks : List (VkVar Q)} {pi : List (FpElemVar p)} {b : ProofVar p}
    {c1 : Circ p} (h : store te I.m I.tpm VK PI B c = .ok ((vks, pi, b), c1)) {pin : List (ZMod p)} {w : ℕ → ZMod p} (hw : Sat c1 pin w)
    (hpts : ∀ P ∈ allPoints vks b, ∃ g, te g = some (w P.1, w P.2)) (hnum : ∀ x ∈ allElems pi b, number I w x < Q) :
    ∃ VK' PI' B', Like VK PI B VK' PI' B' ∧ SameRest VK VK' B B' ∧ Holds I te w vks pi b VK' PI' B' := by
  obtain ⟨s1, s2⟩ := C88_limbs hP hc h hw
  obtain ⟨-, ha, -⟩ := (store_spec (te := te) (H := False) hP.par hc.ctxF VK PI B False.elim False.elim).sound _ _ h
  obtain ⟨hk, hi, hb⟩ := ha
  simp only at hk hi hb
  have pts : ∀ ps : List (ℕ × ℕ), (∀ P ∈ ps, P ∈ allPoints vks b) → ∃ gs, Shows te w ps gs := fun ps h =>
    exists_list fun P hP => hpts P (h P hP)
  have els : ∀ {xs : List (FpElemVar p)} {as : List (ZMod Q)}, List.Forall₂ (fun x a => Hol True I.mod a x c1) xs as →
      (∀ x ∈ xs, x ∈ allElems pi b) → ∃ ns : List (ZMod Q), List.Forall₂ (Enc w) xs ns := by
    intro xs as g h
    exact exists_list fun x hx => ⟨_, enc_of_number hP (var_of g x hx).2.2 (hnum x (h x hx))⟩
  obtain ⟨PI', hPI⟩ := els hi fun x hx => by unfold allElems; simp [hx]
  obtain ⟨VK', k1, k2⟩ := exists_list₂ (S := fun (v : VkVar Q) (vk vk' : VKey (ZMod Q) G G2) =>
      HasKey te vk v c1 ∧ ShowsVk te w v vk' ∧ vk' = { vk with sigmas := vk'.sigmas, selectors := vk'.selectors }) hk (by
    intro v hv vk hvk
    obtain ⟨s, hs⟩ := pts v.sigmas fun P hP => by
      unfold allPoints
      simp only [List.mem_append, List.mem_flatMap]
      exact .inl (.inl (.inl (.inl ⟨v, hv, .inl hP⟩)))
    obtain ⟨q, hq⟩ := pts v.selectors fun P hP => by
      unfold allPoints
      simp only [List.mem_append, List.mem_flatMap]
      exact .inl (.inl (.inl (.inl ⟨v, hv, .inr hP⟩)))
    exact ⟨{ vk with sigmas := s, selectors := q }, hvk, ⟨hq, hs⟩, rfl⟩)
  obtain ⟨ws, hws⟩ := exists_list (R := Shows te w) (l := b.wires) fun l hl => pts l fun P hP => by
    unfold allPoints
    simp only [List.mem_append, List.mem_flatten]
    exact .inl (.inl (.inl (.inr ⟨l, hl, hP⟩)))
  obtain ⟨zs, hzs⟩ := pts b.prodPerm fun P hP => by unfold allPoints; simp [hP]
  obtain ⟨qs, hqs⟩ := pts b.quot fun P hP => by unfold allPoints; simp [hP]
  obtain ⟨o, ho⟩ := hpts b.opening (by unfold allPoints; simp)
  obtain ⟨sh, hsh⟩ := hpts b.shifted (by unfold allPoints; simp)
  obtain ⟨es, x1, x2⟩ := exists_list₂ (S := fun (v : EvalsVar p) (e e' : Evals (ZMod Q)) => HasEvals I.mod e v c1 ∧ EncE w v e')
    hb.evals (by
      intro v hv e he
      have sub : ∀ x, x ∈ v.wires ∨ x ∈ v.sigmas ∨ x = v.permNext → x ∈ allElems pi b := by
        intro x hx
        unfold allElems
        rw [List.mem_append, List.mem_flatMap]
        refine .inr ⟨v, hv, ?_⟩
        rcases hx with hx | hx | hx <;> simp [hx]
      obtain ⟨a, h1⟩ := els he.wires fun x hx => sub x (.inl hx)
      obtain ⟨s, h2⟩ := els he.sigmas fun x hx => sub x (.inr (.inl hx))
      exact ⟨⟨a, s, _⟩, he, h1, h2, enc_of_number hP he.permNext.2.1.2 (hnum _ (sub _ (.inr (.inr rfl))))⟩)
  refine ⟨VK', PI', ⟨ws, zs, es, B.lookups, qs, o, sh⟩, ?_, ⟨?_, rfl⟩, ?_⟩
  · refine ⟨k2.imp ?_, by rw [← hi.length_eq, hPI.length_eq], ?_, ?_, x2.imp ?_, ?_⟩
    · rintro vk vk' ⟨v, g1, g2, g3⟩
      refine ⟨by rw [← g1.sigmas.length_eq, g2.2.length_eq], by rw [← g1.selectors.length_eq, g2.1.length_eq], ?_, ?_, ?_, ?_⟩ <;> rw [g3]
    · have : ∀ {l : List (List (ℕ × ℕ))} {m n : List (List G)}, List.Forall₂ (List.Forall₂ (fun P g => HasPoint te g P c1)) l m →
          List.Forall₂ (Shows te w) l n → List.Forall₂ (fun (a b : List G) => a.length = b.length) m n := by
        intro l m n h1
        induction h1 generalizing n with
        | nil => intro h2; cases h2; exact .nil
        | cons a _ ih => intro h2; cases h2 with
          | cons a' t' => exact .cons (by rw [← a.length_eq, a'.length_eq]) (ih t')
      exact this hb.wires hws
    · rw [← hb.prodPerm.length_eq]; exact hzs.length_eq
    · rintro e e' ⟨v, g1, g2⟩
      exact ⟨by rw [← g1.wires.length_eq, g2.1.length_eq], by rw [← g1.sigmas.length_eq, g2.2.1.length_eq]⟩
    · rw [← hb.quot.length_eq]; exact hqs.length_eq
  · refine k2.imp ?_
    rintro vk vk' ⟨v, -, -, g3⟩
    constructor <;> rw [g3]
  · refine ⟨k1.imp ?_, k1.imp ?_, hPI, ⟨hws, hzs, x1.imp ?_, hqs, ho, hsh⟩, s1, s2⟩
    · rintro v vk' ⟨vk, -, g, -⟩; exact g
    · rintro v vk' ⟨vk, g1, -, g3⟩
      refine ⟨?_, ?_, ?_, ?_⟩ <;> rw [g3]
      · exact g1.merged
      · exact g1.domSize
      · exact g1.numInputs
      · exact g1.k
    · rintro v e' ⟨e, -, g⟩; exact g

/-! ## The verifier circuit on stored keys and proofs -/

section verifier

variable [AddCommGroup G] [Module (ZMod Q) G] [DecidableEq G] {E : EdGroup (ZMod p)} {T : TE p} {τ : G →+ E.Pt} {d : Domain (ZMod Q)}
  {K : Consts} {f : Vec (ZMod p) → Vec (ZMod p)} {newDom : ℕ → Option (Domain (ZMod Q))}

theorem defined_coord : Defined (coord τ) VK B := by
  constructor <;> simp [coord]

theorem holds_data {w : ℕ → ZMod p} {vks : List (VkVar Q)} {pi : List (FpElemVar p)} {b : ProofVar p} {n : ℕ}
    (h : Holds I (coord τ) w vks pi b VK PI B) (hT : Turbo d n VK B) : Data I τ w vks (pi ++ pi) b VK (PI ++ PI) B := by
  have hpi : List.Forall₂ (Enc w) (pi ++ pi) (PI ++ PI) := List.rel_append h.inputs h.inputs
  refine ⟨⟨h.keys, ?_, h.proof, ?_, hT.noLookup, hT.prodPerm.symm, by simp⟩, ?_, ?_, h.smallEvals⟩
  · rw [h.keys.length_eq]
    generalize VK.length = m
    induction m with
    | zero => exact .nil
    | succ m ih => rw [List.replicate_succ, List.replicate_succ]; exact .cons hpi ih
  · rw [hT.lookups]
    intro l hl
    obtain ⟨_, _, rfl⟩ := List.mem_map.1 hl
    rfl
  · exact h.fields.imp fun _ _ g => ⟨g.2.2.2, g.2.1, g.2.2.1⟩
  · intro x hx
    rw [List.mem_append, or_self] at hx
    exact h.smallPi x hx

theorem right_of {α β : Type} {R : α → β → Prop} {S : α → Prop} {S' : β → Prop} (hS : ∀ a b, R a b → S a → S' b) {l : List α}
    {m : List β} (h : List.Forall₂ R l m) (hl : ∀ a ∈ l, S a) : ∀ b ∈ m, S' b := by
  induction h with
  | nil => simp
  | cons a _ ih =>
    intro x hx
    rcases List.mem_cons.1 hx with rfl | hx
    · exact hS _ _ a (hl _ (by simp))
    · exact ih (fun y hy => hl y (by simp [hy])) x hx

theorem map_none {α β γ : Type} : ∀ {l : List α} {m : List β}, l.length = m.length →
    (l.map fun _ => (none : Option γ)) = m.map fun _ => none
  | [], [], _ => rfl
  | _ :: l, _ :: m, h => by rw [List.map_cons, List.map_cons, map_none (Nat.succ.inj h)]
  | [], _ :: _, h => by cases h
  | _ :: _, [], h => by cases h

theorem like_turbo {n : ℕ} {VK VK' : List (VKey (ZMod Q) G G2)} {B B' : BProof (ZMod Q) G} (hl : Like VK PI B VK' PI' B')
    (hr : SameRest VK VK' B B') (hT : Turbo d n VK B) : Turbo d n VK' B' where
  pos := by
    have := hl.keys.length_eq
    have h2 := hT.pos
    intro h
    rw [h] at this
    exact h2 (List.eq_nil_of_length_eq_zero (by simpa using this))
  prodPerm := by rw [← hl.prodPerm, hT.prodPerm, hl.keys.length_eq]
  evals := by rw [← hl.evals.length_eq, hT.evals, hl.keys.length_eq]
  wires := by rw [← hl.wires.length_eq, hT.wires, hl.keys.length_eq]
  lookups := by rw [← hr.2, hT.lookups]; exact map_none hl.evals.length_eq
  wiresLen := right_of (fun _ _ g h => by rw [← g]; exact h) hl.wires hT.wiresLen
  evalsLen := right_of (fun _ _ g h => by rw [← g.1, ← g.2]; exact h) hl.evals hT.evalsLen
  sigmasLen := right_of (fun _ _ g h => by rw [← g.1]; exact h) hl.keys hT.sigmasLen
  quot := by
    intro h
    have := hl.quot
    rw [h] at this
    exact hT.quot (List.eq_nil_of_length_eq_zero (by simpa using this))
  merged := right_of (fun _ _ g h => by rw [← g.2.2.1]; exact h) hl.keys hT.merged
  noLookup := right_of (fun _ _ g h => by rw [← g.2]; exact h) hr.1 hT.noLookup
  inputs := right_of (fun _ _ g h => by rw [← g.2.2.2.2.1]; exact h) hl.keys hT.inputs
  dom := right_of (fun _ _ g h => by rw [← g.2.2.2.1]; exact h) hl.keys hT.dom

/-- the verifier circuit keeps the constraints of the circuit it is built on -/
theorem partialVerify_sat {vks : List (VkVar Q)} {pi : List (FpElemVar p)} {b : ProofVar p} {blind : ℕ} {w0 : ℕ → ZMod p}
    (S : Setup I k K f T E d (PI ++ PI).length VK.length) (hT : Turbo d (PI ++ PI).length VK B) (hd : newDom d.size = some d)
    (hc : Ready k c) (hroom : Room (tables VK B) c) (hE : Exist I c vks (List.replicate vks.length (pi ++ pi)) b)
    (hD : Data I τ w0 vks (pi ++ pi) b VK (PI ++ PI) B) (hbl : blind < c.numVars) {g0 B0 : G} {r : (ℕ × ℕ) × (ℕ × ℕ)} {x : PcsVar p}
    {c' : Circ p} (hrun : VerifierAgg.partialVerify K T newDom (τ B0).1 (τ g0).1 vks pi b blind c = .ok ((r, x), c'))
    {pin : List (ZMod p)} {w : ℕ → ZMod p} (hw : Sat c' pin w) : Sat c pin w := by
  have hP := S.params
  rw [partialVerify_eq S hD hT hc hd] at hrun
  obtain ⟨ch, c0, h0, hrun⟩ := bind_ok hrun
  obtain ⟨x', c1, h1, hrun⟩ := bind_ok hrun
  obtain ⟨r', c2, h2, hrun⟩ := bind_ok hrun
  have hpure : ((r', x'), c2) = ((r, x), c') := Except.ok.inj hrun
  simp only [Prod.mk.injEq] at hpure
  obtain ⟨⟨rfl, rfl⟩, rfl⟩ := hpure
  obtain ⟨e0, ⟨y0, hch0⟩, -⟩ := chal_run S hc hE h0
  have hc0 : Ctx False k c0 := hc.ctxF.ext e0
  have sp := rest_spec (H := False) S hD hT rfl rfl hc0 (Exist.ext hE e0) False.elim hch0 False.elim
  obtain ⟨e1, ⟨x1, -, x3, x4, x5, -⟩, -⟩ := sp.sound _ _ h1
  have e01 := e0.trans e1
  have hlen : x'.comm.length ≤ 25 * VK.length + B.quot.length := by
    rw [x5.length_eq]
    exact commVals'_length hT _ _ _ _
  have cs := combine_tspec (H := False) (N := 10 * VK.length) (b := b) (blind := blind) hP.par S.msm τ (g0 := g0) (B0 := B0) rfl rfl (hc0.ext e1)
    (room_tw hc hroom e01 (by unfold tables; omega)) (op := B.opening) (sh := B.shifted)
    ⟨PIn.ext e01 (hE.opens b.opening (by simp)), False.elim⟩ ⟨PIn.ext e01 (hE.opens b.shifted (by simp)), False.elim⟩ x5
    (by rw [x1]; exact hch0.ζ.ext e1) (by rw [x1]; exact hch0.u.ext e1) x3 x4 (e01.lt hbl) False.elim
  obtain ⟨e2, -, -⟩ := cs.sound _ _ h2
  exact e0.sat _ _ (e1.sat _ _ (e2.sat _ _ hw))

/-- **C88**, the whole circuit, honest prover: keys of merged circuits, shared public inputs, a proof and a blinding factor are
stored, the verifier circuit is built on them and satisfied, and it returns the two points of the native verifier. -/
theorem C88_circuit_honest (S : Setup I k K f T E d (PI ++ PI).length VK.length) (hT : Turbo d (PI ++ PI).length VK B)
    (hd : newDom d.size = some d) (hc : Ready k c) (hroom : Room (tables VK B) c) {pin : List (ZMod p)} (hs : checkSat c pin = .ok ())
    (s : ZMod p) (hb : s.val < 2 ^ windowBits (Nat.size T.r)) (g0 B0 : G)
    (hζ : vanishing d (native τ f VK (List.replicate VK.length (PI ++ PI)) B).ζ ≠ 0) :
    ∃ vks pi b c1 blind c2 r x c' P1 P2, store (coord τ) I.m I.tpm VK PI B c = .ok ((vks, pi, b), c1) ∧
      createVariable s c1 = .ok (blind, c2) ∧
      VerifierAgg.partialVerify K T newDom (τ B0).1 (τ g0).1 vks pi b blind c2 = .ok ((r, x), c') ∧ checkSat c' pin = .ok () ∧
      Plonk.partialVerify newDom (native τ f) B0 g0 VK PI B ((s.val : ℕ) : ZMod Q) = .ok (P1, P2) ∧
      ptAt c'.val r.1 = (τ P1).1 ∧ ptAt c'.val r.2 = (τ P2).1 := by
  obtain ⟨vks, pi, b, c1, h1, s1, r1, -, m1, x1, y1⟩ := C88_honest (te := coord τ) (VK := VK) (PI := PI) (B := B) S.params hc hs
    defined_coord
  have sp := createVariable_spec r1.1 s True
  obtain ⟨blind, c2, h2, s2⟩ := sp.complete trivial pin ((checkSat_ok r1.1 pin).1 s1)
  obtain ⟨e2, ⟨b1, b2⟩, -⟩ := sp.sound _ _ h2
  have hD := (holds_data y1 hT).agree x1 hT.pos e2.val
  have r2 := ready_ext r1 e2
  obtain ⟨r, x, c', P1, P2, a1, a2, a3, a4, a5, -⟩ := C83_honest (newDom := newDom) S hT hd r2 (room_ext r1 (m1 _ hroom) e2)
    ((checkSat_ok e2.wf pin).2 s2) (Exist.ext x1 e2) hD b1 (by rw [b2]; exact hb) g0 B0 hζ
  rw [b2] at a3
  exact ⟨vks, pi, b, c1, blind, c2, r, x, c', P1, P2, h1, h2, a1, a2, a3, a4, a5⟩

/-- **C88**, the whole circuit, any assignment: when keys, inputs, a proof and a blinding factor are stored and the verifier
circuit is built on them, every satisfying assignment whose stored points are commitments and whose stored numbers are below `Q`
holds keys, inputs and a proof of the given shape, and the points returned are those the native verifier pairs for them with
challenges `n` cut from the native hashes, if the limbs of the challenges and of the unchecked sums are in range and `ζ` is
outside the domain. Nothing is assumed about the limbs of the evaluations and inputs beyond the numbers they stand for. -/
theorem C88_circuit_partial (S : Setup I k K f T E d (PI ++ PI).length VK.length) (hT : Turbo d (PI ++ PI).length VK B)
    (hk1 : 248 % k ≠ 0) (hk2 : 129 % k ≠ 0) (hk3 : k < 129) (hd : newDom d.size = some d) (hc : Ready k c)
    (hroom : Room (tables VK B) c) {g0 B0 : G} {s : ZMod p} {vks : List (VkVar Q)} {pi : List (FpElemVar p)} {b : ProofVar p}
    {c1 c2 c' : Circ p} {blind : ℕ} {r : (ℕ × ℕ) × (ℕ × ℕ)} {x : PcsVar p}
    (h1 : store (coord τ) I.m I.tpm VK PI B c = .ok ((vks, pi, b), c1)) (h2 : createVariable s c1 = .ok (blind, c2))
    (h3 : VerifierAgg.partialVerify K T newDom (τ B0).1 (τ g0).1 vks pi b blind c2 = .ok ((r, x), c'))
    {pin : List (ZMod p)} {w : ℕ → ZMod p} (hw : Sat c' pin w)
    (hpts : ∀ P ∈ allPoints vks b, ∃ g, (τ g).1 = (w P.1, w P.2)) (hnum : ∀ x ∈ allElems pi b, number I w x < Q)
    (hch : (six x.ch).All (Small I w)) (hsum : ∀ s ∈ x.sums, Small I w s) (hζ : vanishing d (value Q I w x.ch.ζ) ≠ 0) :
    ∃ (VK' : List (VKey (ZMod Q) G G2)) (PI' : List (ZMod Q)) (B' : BProof (ZMod Q) G) (h : Six (ZMod p)) (n : Six ℕ) (P1 P2 : G),
      Like VK PI B VK' PI' B' ∧ Holds I (coord τ) w vks pi b VK' PI' B' ∧
      native τ f VK' (List.replicate VK'.length (PI' ++ PI')) B' = chal (h.map (low Q)) ∧ Six.All₂ Cut h n ∧
      (w blind).val < 2 ^ windowBits (Nat.size T.r) ∧
      Plonk.partialVerify newDom (fun _ _ _ => chal (n.map (Nat.cast : ℕ → ZMod Q))) B0 g0 VK' PI' B' (((w blind).val : ℕ) : ZMod Q) =
        .ok (P1, P2) ∧ ptAt w r.1 = (τ P1).1 ∧ ptAt w r.2 = (τ P2).1 := by
  obtain ⟨e1, ha, -⟩ := (store_spec (te := coord τ) (H := False) S.params.par hc.ctxF VK PI B False.elim False.elim).sound _ _ h1
  have r1 := ready_ext hc e1
  obtain ⟨e2, ⟨b1, -⟩, -⟩ := (createVariable_spec r1.1 s True).sound _ _ h2
  have r2 := ready_ext r1 e2
  have e12 := e1.trans e2
  have hE := Exist.ext (hasAll_exist ha vks.length) e2
  have hold : Sat c1 pin w := e2.sat _ _ (partialVerify_sat S hT hd r2 (room_ext hc hroom e12) hE
    ((holds_data (hasAll_holds S.params ha) hT).agree (hasAll_exist ha vks.length) hT.pos e2.val) b1 h3 hw)
  obtain ⟨VK', PI', B', l1, l2, l3⟩ := C88_sound_partial S.params hc h1 hold (fun P hP => by
    obtain ⟨g, hg⟩ := hpts P hP
    exact ⟨g, congrArg some hg⟩) hnum
  have hlen : VK.length = VK'.length := l1.keys.length_eq
  have hpl : (PI ++ PI).length = (PI' ++ PI').length := by simp [l1.inputs]
  have hT' : Turbo d (PI' ++ PI').length VK' B' := by rw [← hpl]; exact like_turbo l1 l2 hT
  have S' : Setup I k K f T E d (PI' ++ PI').length VK'.length := by rw [← hpl, ← hlen]; exact S
  have htab : tables VK' B' = tables VK B := by unfold tables; rw [hlen, l1.quot]
  obtain ⟨h, n, P1, P2, q1, q2, q3, q4, q5, q6⟩ := C83_sound_partial S' hT' hk1 hk2 hk3 hd r2
    (by rw [htab]; exact room_ext hc hroom e12) hE b1 h3 hw (holds_data l3 hT') hch hsum hζ
  exact ⟨VK', PI', B', h, n, P1, P2, l1, l3, q1, q2, q3, q4, q5, q6⟩

end verifier

theorem forall2_of_right' {α β : Type} {R S : α → β → Prop} {l : List α} {m : List β} (h : List.Forall₂ R l m)
    (hi : ∀ x y, R x y → y ∈ m → S x y) : List.Forall₂ S l m := by
  induction h with
  | nil => exact .nil
  | cons a _ ih => exact .cons (hi _ _ a (by simp)) (ih fun x y g hy => hi x y g (by simp [hy]))

/-! ## The hypotheses are met -/

section examples

open Verif.Curves Verif.Rescue

theorem ex_new : Ready 16 (Circ.new p_fq377 (some 16)) ∧ Room (tables [exKey] exProof) (Circ.new p_fq377 (some 16)) ∧
    checkSat (Circ.new p_fq377 (some 16)) [] = .ok () := by
  have hr : RangeOK (Circ.new p_fq377 (some 16)) := by
    intro j hj
    simp only [Circ.new, Option.some.injEq] at hj
    subst hj
    exact ⟨by norm_num, by norm_num, by decide +kernel⟩
  have hw := wf_new (p := p_fq377) (some 16)
  refine ⟨⟨hw, hr, rfl⟩, ⟨tablesOK_new _, ?_⟩, (checkSat_ok hw []).2 (Verif.Props.Emulated.sat_new (p := p_fq377) (some 16))⟩
  have : tables [exKey] exProof = 37 := rfl
  rw [this]
  decide +kernel

/-- `C88_circuit_honest`: the key, the proof and the shipped permutation of C83, in a new circuit; the assignment of the builder
meets the hypotheses of `C88_sound_partial`. -/
example : ∃ (f : Vec (ZMod p_fq377) → Vec (ZMod p_fq377)) (vks : List (VkVar p_ed377)) (pi : List (FpElemVar p_fq377))
    (b : ProofVar p_fq377) (c1 c2 c' : Circ p_fq377) (blind : ℕ) (r : (ℕ × ℕ) × (ℕ × ℕ)) (x : PcsVar p_fq377) (P1 P2 : G1),
    HashOk fq377 f ∧
    store (coord tau) I377.m I377.tpm [exKey] [7] exProof (Circ.new p_fq377 (some 16)) = .ok ((vks, pi, b), c1) ∧
    createVariable 12345 c1 = .ok (blind, c2) ∧
    VerifierAgg.partialVerify fq377 g1Bls377 exDom (tau (3 • gen)).1 (tau gen).1 vks pi b blind c2 = .ok ((r, x), c') ∧
    checkSat c' [] = .ok () ∧
    Plonk.partialVerify exDom (native tau f) (3 • gen) gen [exKey] [7] exProof (((12345 : ZMod p_fq377).val : ℕ) : ZMod p_ed377) =
      .ok (P1, P2) ∧ ptAt c'.val r.1 = (tau P1).1 ∧ ptAt c'.val r.2 = (tau P2).1 := by
  obtain ⟨f, -, -, -, -, -, -, -, -, -, -, hf, -, -, -, -, -, -, -, -, -, -, -, -, -, -, hv⟩ := example_holds
  obtain ⟨hR, hroom, hs⟩ := ex_new
  obtain ⟨vks, pi, b, c1, blind, c2, r, x, c', P1, P2, h⟩ := C88_circuit_honest (VK := [exKey]) (PI := [7]) (B := exProof)
    (newDom := exDom) (exSetup hf) exTurbo rfl hR hroom hs 12345 (by decide +kernel) gen (3 • gen) hv
  exact ⟨f, vks, pi, b, c1, c2, c', blind, r, x, P1, P2, hf, h⟩

/-- `C88_free_counterexample`: the circuit that stores the key and the proof of the example is satisfied by a key whose
commitments are all `(1, 1)`, which is not a point of the curve. -/
example : ∃ (vks : List (VkVar p_ed377)) (pi : List (FpElemVar p_fq377)) (b : ProofVar p_fq377) (c1 : Circ p_fq377)
    (w : ℕ → ZMod p_fq377),
    store (coord tau) I377.m I377.tpm [exKey] [7] exProof (Circ.new p_fq377 (some 16)) = .ok ((vks, pi, b), c1) ∧ Sat c1 [] w ∧
    (∀ v ∈ vks, ∀ P ∈ v.sigmas, (w P.1, w P.2) = (1, 1)) ∧ vks.length = 1 ∧ (∀ v ∈ vks, v.sigmas.length = 5) ∧
    ¬ EdOn g1Bls377.a g1Bls377.d ((1 : ZMod p_fq377), (1 : ZMod p_fq377)) := by
  obtain ⟨hR, hroom, hs⟩ := ex_new
  obtain ⟨vks, pi, b, c1, h1, -⟩ := C88_honest (te := coord tau) (VK := [exKey]) (PI := [7]) (B := exProof) I377_params hR hs
    defined_coord
  let VK' : List (VKey (ZMod p_ed377) Unit ℕ) :=
    [⟨2, 2, List.replicate 5 (), List.replicate 13 (), [1, 2, 3, 4, 5], ⟨(), 0, 0, [], []⟩, true, none⟩]
  let B' : BProof (ZMod p_ed377) Unit := ⟨[List.replicate 5 ()], [()], [exEv], [none], List.replicate 5 (), (), ()⟩
  have hl : Like [exKey] [7] exProof VK' [7] B' := by
    refine ⟨.cons ⟨?_, ?_, rfl, rfl, rfl, rfl⟩ .nil, rfl, .cons ?_ .nil, rfl, .cons ⟨rfl, rfl⟩ .nil, ?_⟩ <;>
      simp [exKey, exProof, B']
  obtain ⟨w, hw, -, hh⟩ := C88_free_counterexample (te' := fun _ : Unit => some ((1 : ZMod p_fq377), (1 : ZMod p_fq377)))
    I377_params hR hs h1 hl (by constructor <;> simp)
  refine ⟨vks, pi, b, c1, w, h1, hw, ?_, hh.keys.length_eq, ?_, ?_⟩
  · refine forall₂_of_left (S := fun v : VkVar p_ed377 => ∀ P ∈ v.sigmas, (w P.1, w P.2) = (1, 1)) (fun v vk g => ?_) hh.keys
    exact forall₂_of_left (S := fun P : ℕ × ℕ => (w P.1, w P.2) = (1, 1)) (fun P g h => (Option.some.inj h).symm) g.2
  · have h2 : List.Forall₂ (fun (v : VkVar p_ed377) (vk : VKey (ZMod p_ed377) Unit ℕ) => v.sigmas.length = 5) vks VK' :=
      forall2_of_right' hh.keys fun v vk g hv => by
        rw [g.2.length_eq, List.mem_singleton.1 hv]; rfl
    exact forall₂_of_left (S := fun v : VkVar p_ed377 => v.sigmas.length = 5) (fun _ _ g => g) h2
  · unfold EdOn
    decide +kernel

/-- `C88_noncanonical_counterexample`: zero in a new circuit may also be the number `Q`. -/
example : ∃ (v : FpElemVar p_fq377) (c1 : Circ p_fq377) (w : ℕ → ZMod p_fq377),
    storeElem I377.m I377.tpm (0 : ZMod p_ed377) (Circ.new p_fq377 (some 16)) = .ok (v, c1) ∧ Sat c1 [] w ∧
    number I377 w v = p_ed377 ∧ value p_ed377 I377 w v = 0 ∧ ¬ Enc w v (0 : ZMod p_ed377) := by
  obtain ⟨hR, hroom, hs⟩ := ex_new
  have hs' := (checkSat_ok hR.1 []).1 hs
  obtain ⟨v, c1, h1, -⟩ := (storeElem_spec (H := True) I377_params.par (hR.ctx hs') (0 : ZMod p_ed377)).complete trivial [] hs'
  obtain ⟨w, a1, a2, a3, a4, a5⟩ := C88_noncanonical_counterexample I377_params hR hs 0 h1 (by decide +kernel)
  exact ⟨v, c1, w, h1, a1, by rw [a3, ZMod.val_zero, zero_add], a4, a5⟩

/-- `C88_fields`: the base field of BLS12-377 does not fit into its scalar field. -/
example : modulusBits p_ed377 ≤ modulusBits p_fq377 := by decide +kernel

end examples

end Verif.Props.VerifierInput
