import Verif.Circuit.VerifierAggKeys
import Verif.Circuit.VerifierAggNative
import Verif.Plonk.BatchArg
import Verif.Props.TranscriptCircuit

/-!
# C83: the two points of the verifier circuit and the pairing check of the native verifier
-/

set_option linter.unusedSectionVars false

namespace Verif.Props.VerifierPoints

open Verif.Circuit Verif.Circuit.VerifierPoly Verif.Circuit.TranscriptVar Verif.Circuit.VerifierAgg
open Verif.Props.VerifierCircuit Verif.Props.TranscriptCircuit Verif.Plonk Verif.Pcs Verif.Conv Verif.Props.Msm
open Verif.Rescue (Vec Consts)

variable {p Q k : ℕ} [hp : Fact p.Prime] [hQ : Fact Q.Prime] {G G2 : Type} [AddCommGroup G] [Module (ZMod Q) G] [DecidableEq G]
  {E : EdGroup (ZMod p)}

/-- the coordinates of a commitment -/
def coord (τ : G →+ E.Pt) (g : G) : Option (ZMod p × ZMod p) := some (τ g).1

/-! ## Lists of variables -/

section lists

variable {H : Prop} {τ : G →+ E.Pt} {c : Circ p} {w : ℕ → ZMod p} {I : Info p}

theorem shows_rel {ps : List (ℕ × ℕ)} {gs : List G} (h : Shows (coord τ) w ps gs) :
    List.Forall₂ (fun P g => ptAt w P = (τ g).1) ps gs :=
  h.imp fun _ _ h => (Option.some.inj h).symm

theorem holP_list {ps : List (ℕ × ℕ)} {gs : List G} (h : Shows (coord τ) w ps gs) (hi : PtsIn ps c) (hw : H → w = c.val) :
    List.Forall₂ (fun P g => HolP H (fun g => (τ g).1) g P c) ps gs := by
  unfold Shows at h
  induction h with
  | nil => exact .nil
  | @cons P g ps gs h1 _ ih =>
    refine .cons ⟨hi P (by simp), fun hH => ?_⟩ (ih fun P hP => hi P (by simp [hP]))
    rw [← hw hH]
    exact (Option.some.inj h1).symm

theorem num_of_enc (hP : Params I Q k) {x : FpElemVar p} {a : ZMod Q} (ht : x.tpm = I.mod.tpm) (h : Enc w x a)
    (hs : Small I w x) : (w x.v0).val + 2 ^ I.mod.m * (w x.v1).val = a.val := by
  have hap : a.val < p := (ZMod.val_lt a).trans hP.par.q_lt_p
  unfold Enc at h
  rw [ht] at h
  have htp : I.mod.tpm = ((2 ^ I.mod.m : ℕ) : ZMod p) := by
    rw [hP.mul.tpm]; push_cast; rfl
  have hlt : (w x.v0).val + 2 ^ I.mod.m * (w x.v1).val < p := by
    have h4 : (w x.v0).val + 2 ^ I.mod.m * (w x.v1).val < 2 ^ I.mod.m * 2 ^ I.mod.m := by
      calc _ < 2 ^ I.mod.m + 2 ^ I.mod.m * (w x.v1).val := by have := hs.1; omega
        _ = 2 ^ I.mod.m * ((w x.v1).val + 1) := by ring
        _ ≤ _ := Nat.mul_le_mul_left _ hs.2
    have h5 : (2 : ℕ) ^ I.mod.m * 2 ^ I.mod.m ≤ 2 ^ (2 * I.mod.m + k + 2) := by
      rw [← pow_add]; exact Nat.pow_le_pow_right (by norm_num) (by omega)
    have := hP.wide
    omega
  have h6 : (((w x.v0).val + 2 ^ I.mod.m * (w x.v1).val : ℕ) : ZMod p) = ((a.val : ℕ) : ZMod p) := by
    rw [← h, htp]; push_cast; simp only [ZMod.natCast_val, ZMod.cast_id', id]
  have h7 := congrArg ZMod.val h6
  rwa [ZMod.val_natCast_of_lt hlt, ZMod.val_natCast_of_lt hap] at h7

theorem ew_of_enc (hP : Params I Q k) {x : FpElemVar p} {a : ZMod Q} (ht : x.tpm = I.mod.tpm) (h : Enc w x a)
    (hs : Small I w x) : Ew I.mod w a x := by
  refine ⟨hs, ?_⟩
  show (((w x.v0).val + 2 ^ I.mod.m * (w x.v1).val : ℕ) : ZMod Q) = a
  rw [num_of_enc hP ht h hs, ZMod.natCast_val, ZMod.cast_id]

theorem hol_of_enc (hP : Params I Q k) {x : FpElemVar p} {a : ZMod Q} (hv : Var I c x) (h : Enc w x a)
    (hw : H → w = c.val ∧ Small I w x) : Hol H I.mod a x c := by
  refine ⟨hv.1, hv.2, fun hH => ?_⟩
  obtain ⟨rfl, hs⟩ := hw hH
  have h1 := num_of_enc hP hv.2.2 h hs
  have h2 := hs.1
  constructor
  · rw [← h1, Nat.add_mul_mod_self_left, Nat.mod_eq_of_lt h2]
  · rw [← h1, Nat.add_mul_div_left _ _ (by positivity), Nat.div_eq_of_lt h2, zero_add]

theorem ew_list (hP : Params I Q k) {xs : List (FpElemVar p)} {as : List (ZMod Q)} (h : List.Forall₂ (Enc w) xs as)
    (hv : ∀ x ∈ xs, Var I c x) (hs : ∀ x ∈ xs, Small I w x) : List.Forall₂ (fun x a => Ew I.mod w a x) xs as := by
  induction h with
  | nil => exact .nil
  | cons h1 _ ih =>
    exact .cons (ew_of_enc hP (hv _ (by simp)).2.2 h1 (hs _ (by simp))) (ih (fun y hy => hv y (by simp [hy]))
      fun y hy => hs y (by simp [hy]))

theorem hol_enc_list (hP : Params I Q k) {xs : List (FpElemVar p)} {as : List (ZMod Q)} (h : List.Forall₂ (Enc w) xs as)
    (hv : ∀ x ∈ xs, Var I c x) (hs : H → w = c.val ∧ ∀ x ∈ xs, Small I w x) :
    List.Forall₂ (fun x a => Hol H I.mod a x c) xs as := by
  induction h with
  | nil => exact .nil
  | cons h1 _ ih =>
    exact .cons (hol_of_enc hP (hv _ (by simp)) h1 fun hH => ⟨(hs hH).1, (hs hH).2 _ (by simp)⟩)
      (ih (fun y hy => hv y (by simp [hy])) fun hH => ⟨(hs hH).1, fun y hy => (hs hH).2 y (by simp [hy])⟩)

theorem ewE_list (hP : Params I Q k) {es : List (EvalsVar p)} {as : List (Evals (ZMod Q))} (h : List.Forall₂ (EncE w) es as)
    (hv : ∀ e ∈ es, VarE I c e) (hs : ∀ e ∈ es, SmallE I w e) :
    List.Forall₂ (fun e a => EvalsW I.mod w (evalsVal a) e) es as := by
  induction h with
  | nil => exact .nil
  | cons h1 _ ih =>
    obtain ⟨v1, v2, v3⟩ := hv _ (List.mem_cons_self)
    obtain ⟨s1, s2, s3⟩ := hs _ (List.mem_cons_self)
    exact .cons ⟨ew_list hP h1.1 v1 s1, ew_list hP h1.2.1 v2 s2, ew_of_enc hP v3.2.2 h1.2.2 s3⟩
      (ih (fun y hy => hv y (by simp [hy])) fun y hy => hs y (by simp [hy]))

theorem holE_enc_list (hP : Params I Q k) {es : List (EvalsVar p)} {as : List (Evals (ZMod Q))}
    (h : List.Forall₂ (EncE w) es as) (hv : ∀ e ∈ es, VarE I c e) (hs : H → w = c.val ∧ ∀ e ∈ es, SmallE I w e) :
    List.Forall₂ (fun e a => HolE H I.mod (evalsVal a) e c) es as := by
  induction h with
  | nil => exact .nil
  | @cons e a es as h1 _ ih =>
    obtain ⟨v1, v2, v3⟩ := hv e (List.mem_cons_self)
    have s : H → w = c.val ∧ SmallE I w e := fun hH => ⟨(hs hH).1, (hs hH).2 e (by simp)⟩
    exact .cons ⟨hol_enc_list hP h1.1 v1 fun hH => ⟨(s hH).1, (s hH).2.1⟩,
      hol_enc_list hP h1.2.1 v2 fun hH => ⟨(s hH).1, (s hH).2.2.1⟩, hol_of_enc hP v3 h1.2.2 fun hH => ⟨(s hH).1, (s hH).2.2.2⟩⟩
      (ih (fun y hy => hv y (by simp [hy])) fun hH => ⟨(hs hH).1, fun y hy => (hs hH).2 y (by simp [hy])⟩)

end lists

/-- the fields of a key the circuit does not hold in variables -/
def SameKey (x : VkVar Q) (y : VKey (ZMod Q) G G2) : Prop :=
  x.k = y.k ∧ x.domSize = y.domSize ∧ x.numInputs = y.numInputs

theorem insts_rel {A : ℕ × ℕ → G → Prop} {R : EvalsVar p → Evals (ZMod Q) → Prop} :
    ∀ {vks : List (VkVar Q)} {VK : List (VKey (ZMod Q) G G2)} {es : List (EvalsVar p)} {as : List (Evals (ZMod Q))}
      {zs : List (ℕ × ℕ)} {gs : List G} {ws : List (List (ℕ × ℕ))} {hs : List (List G)},
    List.Forall₂ (fun x y => List.Forall₂ A x.sigmas y.sigmas ∧ List.Forall₂ A x.selectors y.selectors ∧ x.k = y.k) vks VK →
    List.Forall₂ R es as → List.Forall₂ A zs gs → List.Forall₂ (List.Forall₂ A) ws hs →
    List.Forall₂ (fun x X => (∃ a, X.evals = evalsVal a ∧ R x.evals a) ∧ A x.z X.z ∧ List.Forall₂ A x.wires X.wires ∧
      List.Forall₂ A x.sigmas X.sigmas ∧ List.Forall₂ A x.selectors X.selectors ∧ x.k = X.k)
      (zipInst vks es zs ws) (instsOf VK as gs hs)
  | _, _, _, _, _, _, _, _, .nil, _, _, _ => .nil
  | _, _, _, _, _, _, _, _, .cons _ _, .nil, _, _ => .nil
  | _, _, _, _, _, _, _, _, .cons _ _, .cons _ _, .nil, _ => .nil
  | _, _, _, _, _, _, _, _, .cons _ _, .cons _ _, .cons _ _, .nil => .nil
  | _, _, _, _, _, _, _, _, .cons a t1, .cons b t2, .cons c t3, .cons d t4 =>
    .cons ⟨⟨_, rfl, b⟩, c, d, a.1, a.2.1, a.2.2⟩ (insts_rel t1 t2 t3 t4)

theorem zipInst_shape {H : Prop} : ∀ (vks : List (VkVar Q)) (es : List (EvalsVar p)) (zs : List (ℕ × ℕ)) (ws : List (List (ℕ × ℕ))),
    (∀ x ∈ vks, x.sigmas.length = 5) → (∀ e ∈ es, e.wires.length = 5) → (∀ l ∈ ws, l.length = 5) →
    ∀ x ∈ zipInst vks es zs ws, Shape H x
  | [], _, _, _, _, _, _, x, hx => by simp [zipInst] at hx
  | _ :: _, [], _, _, _, _, _, x, hx => by simp [zipInst] at hx
  | _ :: _, _ :: _, [], _, _, _, _, x, hx => by simp [zipInst] at hx
  | _ :: _, _ :: _, _ :: _, [], _, _, _, x, hx => by simp [zipInst] at hx
  | vk :: vks, e :: es, z :: zs, l :: ws, h1, h2, h3, x, hx => by
    rw [zipInst, List.mem_cons] at hx
    rcases hx with rfl | hx
    · refine ⟨fun _ => ?_, fun _ h => ?_, (h2 e (by simp)).ge⟩
      · rw [h3 l (by simp)]; omega
      · have := h1 vk (by simp)
        simp only at h
        rw [h] at this
        simp at this
    · exact zipInst_shape vks es zs ws (fun y hy => h1 y (by simp [hy])) (fun y hy => h2 y (by simp [hy]))
        (fun y hy => h3 y (by simp [hy])) x hx

theorem len_of_rel {α β : Type} {R : α → β → Prop} {f : α → ℕ} {g : β → ℕ} (hf : ∀ a b, R a b → f a = g b) {as : List α}
    {bs : List β} (h : List.Forall₂ R as bs) {n : ℕ} (hb : ∀ b ∈ bs, g b = n) : ∀ a ∈ as, f a = n := by
  induction h with
  | nil => simp
  | cons h1 _ ih =>
    intro a ha
    rcases List.mem_cons.1 ha with rfl | ha
    · rw [hf _ _ h1]; exact hb _ (by simp)
    · exact ih (fun b hb' => hb b (by simp [hb'])) a ha

theorem checkKeys_true {n l : ℕ} : ∀ (xs : List (VkVar Q × List (FpElemVar p))), (∀ x ∈ xs, x.2.length = l ∧ x.1.numInputs = l ∧
    x.1.domSize = n) → checkKeys n xs = true
  | [], _ => rfl
  | (vk, pi) :: xs, h => by
    obtain ⟨h1, h2, h3⟩ := h (vk, pi) (by simp)
    simp only at h1 h2 h3
    rw [checkKeys, checkKeys_true xs fun x hx => h x (by simp [hx]), h1, h2, h3]
    simp

/-! ## The points -/

section core

variable {I : Info p} {T : TE p} {τ : G →+ E.Pt} {d : Domain (ZMod Q)} {vks : List (VkVar Q)} {pi : List (FpElemVar p)}
  {b : ProofVar p} {blind : ℕ} {VK : List (VKey (ZMod Q) G G2)} {ps : List (ZMod Q)} {B : BProof (ZMod Q) G} {K : Consts}
  {f : Vec (ZMod p) → Vec (ZMod p)}

/-- the parameters: two limbs modulo `Q` of a wide enough native field, the Rescue constants of that field, a curve over it
with a map from the group of the commitments, a domain of the field of the proofs, and numbers of public inputs and of proofs -/
structure Setup (I : Info p) (k : ℕ) (K : Consts) (f : Vec (ZMod p) → Vec (ZMod p)) (T : TE p) (E : EdGroup (ZMod p))
    (d : Domain (ZMod Q)) (l n : ℕ) : Prop where
  params : Params I Q k
  info : fieldInfo p Q k = .ok I
  hash : HashOk K f
  bitsp : modulusBits p = 377
  bitsQ : modulusBits Q = 253
  curve : E.a = T.a ∧ E.d = T.d
  order : T.r ≠ 0
  window : 2 ^ msmWindow (Nat.size T.r) ≤ T.r
  scalars : Q < 2 ^ windowBits (Nat.size T.r)
  wide : 2 ^ windowBits (Nat.size T.r) + (10 * n + 1) * (2 ^ k * 2 ^ (2 * I.mod.m)) ≤ p
  root : IsPrimitiveRoot d.gen d.size
  offset : d.offset = 1
  two : ∃ j, d.size = 2 ^ j
  size : d.size < Q
  inputs : l ≤ 2 ^ k ∧ l / 2 ≤ d.size
  proofs : n ≤ 2 ^ k

theorem modF_of_info (h : fieldInfo p Q k = .ok I) : I.modF = ((Q : ℕ) : ZMod p) := by
  unfold fieldInfo at h
  simp only at h
  split at h
  · cases h
  · split at h
    · cases h
    · cases h; rfl

/-- keys, public inputs and a proof with the values of the assignment, of which the limbs are in range -/
structure Data (I : Info p) (τ : G →+ E.Pt) (w : ℕ → ZMod p) (vks : List (VkVar Q)) (pi : List (FpElemVar p)) (b : ProofVar p)
    (VK : List (VKey (ZMod Q) G G2)) (ps : List (ZMod Q)) (B : BProof (ZMod Q) G) : Prop where
  values : Input (coord τ) w vks (List.replicate vks.length pi) b VK (List.replicate VK.length ps) B
  same : List.Forall₂ SameKey vks VK
  inputs : ∀ x ∈ pi, Small I w x
  evals : ∀ e ∈ b.evals, SmallE I w e

theorem Data.pi_rel {w : ℕ → ZMod p} (h : Data I τ w vks pi b VK ps B) (hn : VK ≠ []) : List.Forall₂ (Enc w) pi ps := by
  have h1 := h.values.inputs
  have h2 := h.values.keys.length_eq
  cases VK with
  | nil => exact absurd rfl hn
  | cons vk VK =>
    rw [h2, List.length_cons, List.replicate_succ, List.replicate_succ] at h1
    cases h1 with
    | cons h _ => exact h

theorem Data.key_rel {w : ℕ → ZMod p} {A : ℕ × ℕ → G → Prop} (h : Data I τ w vks pi b VK ps B)
    (hA : ∀ x ∈ vks, ∀ y : VKey (ZMod Q) G G2, ShowsVk (coord τ) w x y →
      List.Forall₂ A x.sigmas y.sigmas ∧ List.Forall₂ A x.selectors y.selectors) :
    List.Forall₂ (fun x y => List.Forall₂ A x.sigmas y.sigmas ∧ List.Forall₂ A x.selectors y.selectors ∧ x.k = y.k) vks VK := by
  have h1 := h.values.keys
  have h2 := h.same
  clear h
  induction h1 with
  | nil => exact .nil
  | cons a _ ih =>
    cases h2 with
    | cons s t =>
      have := hA _ (by simp) _ a
      exact .cons ⟨this.1, this.2, s.1⟩ (ih (fun x hx => hA x (by simp [hx])) t)

/-- the relations of the instances in an assignment -/
theorem Data.instW {w : ℕ → ZMod p} {c : Circ p} {pis : List (List (FpElemVar p))} (hP : Params I Q k)
    (h : Data I τ w vks pi b VK ps B) (hE : Exist I c vks pis b) :
    List.Forall₂ (fun x X => InstW (fun g => (τ g).1) I.mod w X x) (zipInst vks b.evals b.prodPerm b.wires) (insts VK B) := by
  have h1 := insts_rel (R := fun e a => EvalsW I.mod w (evalsVal a) e) (h.key_rel (A := fun P g => ptAt w P = (τ g).1)
    fun x _ y g => ⟨shows_rel g.2, shows_rel g.1⟩) (ewE_list hP h.values.proof.evals hE.evals h.evals)
    (shows_rel h.values.proof.prodPerm) (h.values.proof.wires.imp fun _ _ g => shows_rel g)
  refine h1.imp ?_
  rintro x X ⟨⟨a, ha, r⟩, z, ws, s, q, kk⟩
  exact ⟨by rw [ha]; exact r, z, ws, s, q, kk⟩

theorem holP_lists {H : Prop} {w : ℕ → ZMod p} {c : Circ p} {ls : List (List (ℕ × ℕ))} {gs : List (List G)}
    (h : List.Forall₂ (Shows (coord τ) w) ls gs) (hi : ∀ l ∈ ls, PtsIn l c) (hw : H → w = c.val) :
    List.Forall₂ (List.Forall₂ (fun P g => HolP H (fun g => (τ g).1) g P c)) ls gs := by
  induction h with
  | nil => exact .nil
  | cons a _ ih => exact .cons (holP_list a (hi _ (by simp)) hw) (ih fun l hl => hi l (by simp [hl]))

/-- the values of the instances the builder stores -/
theorem Data.holI {H : Prop} {w : ℕ → ZMod p} {c : Circ p} {pis : List (List (FpElemVar p))} (hP : Params I Q k)
    (h : Data I τ w vks pi b VK ps B) (hE : Exist I c vks pis b) (hw : H → w = c.val) :
    List.Forall₂ (fun x X => HolI H (fun g => (τ g).1) I.mod X x c) (zipInst vks b.evals b.prodPerm b.wires) (insts VK B) := by
  have h1 := insts_rel (R := fun e a => HolE H I.mod (evalsVal a) e c)
    (h.key_rel (A := fun P g => HolP H (fun g => (τ g).1) g P c)
      fun x hx y g => ⟨holP_list g.2 (hE.keys x hx).2 hw, holP_list g.1 (hE.keys x hx).1 hw⟩)
    (holE_enc_list hP h.values.proof.evals hE.evals fun hH => ⟨hw hH, h.evals⟩)
    (holP_list h.values.proof.prodPerm hE.prodPerm hw) (holP_lists h.values.proof.wires hE.wires hw)
  refine h1.imp ?_
  rintro x X ⟨⟨a, ha, r⟩, z, ws, s, q, kk⟩
  exact ⟨by rw [ha]; exact r, z, ws, s, q, kk⟩

theorem Exist.ext {c c' : Circ p} {pis : List (List (FpElemVar p))} (h : Exist I c vks pis b) (e : Ext c c') :
    Exist I c' vks pis b := by
  have hv : ∀ {x : FpElemVar p}, Var I c x → Var I c' x := fun hx => ⟨⟨e.lt hx.1.1, e.lt hx.1.2⟩, hx.2⟩
  exact ⟨fun x hx => ⟨(h.keys x hx).1.ext e, (h.keys x hx).2.ext e⟩, fun l hl x hx => hv (h.inputs l hl x hx),
    fun l hl => (h.wires l hl).ext e, h.prodPerm.ext e,
    fun x hx => ⟨fun y hy => hv ((h.evals x hx).1 y hy), fun y hy => hv ((h.evals x hx).2.1 y hy), hv (h.evals x hx).2.2⟩,
    h.quot.ext e, h.opens.ext e⟩

theorem flat_len {w : ℕ → ZMod p} {es : List (EvalsVar p)} {as : List (Evals (ZMod Q))} (h : List.Forall₂ (EncE w) es as)
    (h2 : ∀ e ∈ as, e.wires.length = 5 ∧ e.sigmas.length = 4) : (flatEvals es).length = 10 * as.length := by
  induction h with
  | nil => rfl
  | @cons e a es as g _ ih =>
    have i1 := ih fun x hx => h2 x (by simp [hx])
    have g1 := g.1.length_eq
    have g2 := g.2.1.length_eq
    obtain ⟨g3, g4⟩ := h2 a (by simp)
    unfold flatEvals at i1 ⊢
    simp only [List.flatMap_cons, List.length_append, List.length_cons, List.length_nil, i1]
    omega

theorem flat_length {w : ℕ → ZMod p} (h : Data I τ w vks pi b VK ps B) (hT : Turbo d ps.length VK B) :
    (flatEvals b.evals).length = 10 * VK.length := by
  rw [flat_len h.values.proof.evals hT.evalsLen, hT.evals]

/-- the rest of `prepare_pcs_info_var` -/
theorem rest_spec {H : Prop} {l n : ℕ} (S : Setup I k K f T E d l n) {w : ℕ → ZMod p} (hD : Data I τ w vks pi b VK ps B)
    (hT : Turbo d ps.length VK B) (hl : l = ps.length) (hn : n = VK.length) {c : Circ p} (hc : Ctx H k c)
    (hE : Exist I c vks (List.replicate vks.length pi) b) (hw : H → w = c.val) {ch : ChalVar p × Draws} {y : Six (ZMod Q)}
    (hch : ChalHol H I.mod y ch.1 c) (hζ : H → y.ζ ^ d.size ≠ 1) :
    Spec (prepareRest I d vks pi b ch) c H
      (fun r c' => r.ch = ch.1 ∧ r.draws = ch.2 ∧
        Hol H I.mod (y.ζ * d.gen) r.nextPoint c' ∧
        Acc H I.mod (evalVal y (piVal d.size d.gen y.ζ ps) (l1Val d.size y.ζ) (B.evals.map evalsVal) (abVals y VK.length)
          (insts VK B)) r.eval c' ∧
        List.Forall₂ (fun e v => EntH H (fun g => (τ g).1) I.mod v e c') r.comm
          (commVals' y d.size (l1Val d.size y.ζ) (insts VK B) B.quot (abVals y VK.length)) ∧ Sums H Q I.mod r.sums c')
      (fun r w => ∀ y : Six (ZMod Q), ChalEw I.mod w y ch.1 → Data I τ w vks pi b VK ps B → (∀ s ∈ r.sums, s.Small I.mod w) →
        ∃ V l1, PiRel d.size d.gen y.ζ (y.ζ ^ d.size - 1) ps V ∧ (d.size : ZMod Q) * l1 * (y.ζ - 1) = y.ζ ^ d.size - 1 ∧
          Ew I.mod w (y.ζ * d.gen) r.nextPoint ∧
          Lin I Q k (10 * n + 1) w (evalVal y V l1 (B.evals.map evalsVal) (abVals y VK.length) (insts VK B)) r.eval ∧
          List.Forall₂ (fun e v => EntW (fun g => (τ g).1) I.mod w v e) r.comm
            (commVals' y d.size l1 (insts VK B) B.quot (abVals y VK.length))) := by
  have hP := S.params
  have hkl := hD.values.keys.length_eq
  have hpl := (hD.pi_rel hT.pos).length_eq
  have hel : b.evals.length = VK.length := by rw [hD.values.proof.evals.length_eq, hT.evals]
  have hvar : ∀ x ∈ pi, Var I c x := by
    have h0 : vks.length ≠ 0 := by rw [hkl]; simpa using hT.pos
    exact hE.inputs pi (by rw [List.mem_replicate]; exact ⟨h0, rfl⟩)
  obtain ⟨j, hj⟩ := S.two
  have hew : ∀ e ∈ b.evals, e.wires.length = 5 :=
    len_of_rel (f := fun e : EvalsVar p => e.wires.length) (g := fun e : Evals (ZMod Q) => e.wires.length)
      (fun a b g => g.1.length_eq) hD.values.proof.evals fun e he => (hT.evalsLen e he).1
  have hsh : ∀ x ∈ zipInst vks b.evals b.prodPerm b.wires, Shape H x := zipInst_shape _ _ _ _
    (len_of_rel (f := fun x : VkVar Q => x.sigmas.length) (g := fun y : VKey (ZMod Q) G G2 => y.sigmas.length)
      (fun a b g => g.2.length_eq) hD.values.keys hT.sigmasLen) hew
    (len_of_rel (f := List.length) (g := List.length) (fun a b g => g.length_eq) hD.values.proof.wires hT.wiresLen)
  have sp := prepareRest_spec (te := fun g => (τ g).1) (b := b) (ch := ch) (y := y) (ps := ps) (vks := vks) (Xs := insts VK B)
    (gs := B.quot) (as := B.evals.map evalsVal)
    (by intro g; show (τ (-g)).1 = _; rw [map_neg]; rfl) hP.par (modF_of_info S.info) hj S.size (pi := pi)
    (by rw [hpl, ← hl]; exact S.inputs.1) (by rw [hpl, ← hl]; exact S.inputs.2) hc hch
    (hol_enc_list hP (hD.pi_rel hT.pos) hvar fun hH => ⟨hw hH, hD.inputs⟩) hζ S.root.pow_eq_one
    (by rw [List.forall₂_map_right_iff]; exact holE_enc_list hP hD.values.proof.evals hE.evals fun hH => ⟨hw hH, hD.evals⟩)
    (fun e he => (hew e he).ge) (by rw [hel, ← hn]; exact S.proofs) (hD.holI hP hE hw)
    (holP_list hD.values.proof.quot hE.quot hw) hsh
    (fun _ h => hT.quot (List.eq_nil_of_length_eq_zero (by rw [← hD.values.proof.quot.length_eq, h]; rfl)))
    (fun _ => ⟨hD.values.lens.1, by rw [hel, hkl], by rw [hkl, hD.values.proof.wires.length_eq, hT.wires],
      by rw [hkl]; simpa using hT.pos⟩)
    (fun _ => by
      rw [flat_length hD hT]
      exact (aggVals_length _ _ _ _ _ _ _ hT.evals hT.prodPerm hT.wires hT.wiresLen hT.sigmasLen).symm)
  refine Spec.conseq hc.wf sp (fun h _ _ => h) (fun r c' _ h => ?_) (fun r c' _ _ h => ?_)
  · rw [hkl] at h
    exact h
  · intro y hy hD' hs
    have := h y ps (B.evals.map evalsVal) (insts VK B) B.quot hy (ew_list hP (hD'.pi_rel hT.pos) hvar hD'.inputs)
      (by rw [List.forall₂_map_right_iff]; exact ewE_list hP hD'.values.proof.evals hE.evals hD'.evals)
      (hD'.instW hP hE) (shows_rel hD'.values.proof.quot) hs
    rw [hkl, flat_length hD hT, ← hn, add_comm 1] at this
    rw [← hn]
    exact this

/-- there is room for `N` more lookup tables -/
def Room (N : ℕ) (c : Circ p) : Prop := TablesOK c ∧ c.tableGateIds.length + N < p

/-- the tables of the two multi-scalar multiplications -/
def tables (VK : List (VKey (ZMod Q) G G2)) (B : BProof (ZMod Q) G) : ℕ := 7 + (25 * VK.length + B.quot.length)

theorem Setup.msm {l n : ℕ} (S : Setup I k K f T E d l n) : MsmPar T E I Q k (10 * n + 1) :=
  ⟨S.curve, S.order, S.window, S.scalars, S.wide⟩

theorem Setup.good {l n : ℕ} (S : Setup I k K f T E d l n) : Good d := ⟨S.root, by rw [S.offset]; exact one_ne_zero⟩

theorem pow_ne (ho : d.offset = 1) {a : ZMod Q} (h : vanishing d a ≠ 0) : a ^ d.size ≠ 1 := by
  rw [van_eq ho] at h
  exact fun g => h (by rw [g, sub_self])

theorem room_tw {N : ℕ} {c c' : Circ p} (hc : Ready k c) (h : Room N c) (e : Ext c c') {M : ℕ} (hM : M ≤ N) : TWF M c' := by
  have h1 : TWF (0 + N) c := ⟨hc.1, h.1, by rw [hc.2.2]; simp, by rw [Nat.zero_add]; exact h.2⟩
  exact (e.text.twf h1).mono hM

/-- the points in an assignment, for the challenges of that assignment -/
theorem points {l n : ℕ} (S : Setup I k K f T E d l n) {w : ℕ → ZMod p} (hD : Data I τ w vks pi b VK ps B)
    (hT : Turbo d ps.length VK B) (hl : l = ps.length) (hn : n = VK.length) {c c0 c1 c' : Circ p} (hc : Ready k c)
    (e0 : Ext c c0) (hroom : Room (tables VK B) c) (hE : Exist I c vks (List.replicate vks.length pi) b) (hbl : blind < c.numVars)
    {ch : ChalVar p × Draws} {y0 y : Six (ZMod Q)} (hch : ChalHol False I.mod y0 ch.1 c0) {x : PcsVar p}
    (hx : prepareRest I d vks pi b ch c0 = .ok (x, c1)) {g0 B0 : G} {r : (ℕ × ℕ) × (ℕ × ℕ)}
    (hr : combine T I (τ B0).1 (τ g0).1 b blind x c1 = .ok (r, c')) {pin : List (ZMod p)} (hw : Sat c' pin w)
    (hy : ChalEw I.mod w y ch.1) (hs : ∀ s ∈ x.sums, Small I w s) (hζ : vanishing d y.ζ ≠ 0) :
    ∃ info, prepare d VK (List.replicate VK.length ps) B (chal y) = .ok info ∧
      (w blind).val < 2 ^ windowBits (Nat.size T.r) ∧
      ptAt w r.1 = (τ (openA info + (((w blind).val : ℕ) : ZMod Q) • g0)).1 ∧
      ptAt w r.2 = (τ (openB info g0 + (((w blind).val : ℕ) : ZMod Q) • B0)).1 := by
  have hP := S.params
  have hc0 : Ctx False k c0 := hc.ctxF.ext e0
  have sp := rest_spec (H := False) S hD hT hl hn hc0 (Exist.ext hE e0) False.elim hch False.elim
  obtain ⟨e1, ⟨x1, -, x3, x4, x5, -⟩, R1⟩ := sp.sound _ _ hx
  have e01 := e0.trans e1
  have hlen : x.comm.length ≤ 25 * VK.length + B.quot.length := by
    rw [x5.length_eq]
    exact commVals'_length hT _ _ _ _
  have hop : PIn c1 b.opening := PIn.ext e01 (hE.opens b.opening (by simp))
  have hsh : PIn c1 b.shifted := PIn.ext e01 (hE.opens b.shifted (by simp))
  have cs := combine_tspec (H := False) (N := 10 * n) (b := b) (blind := blind) hP.par S.msm τ (g0 := g0) (B0 := B0) rfl rfl (hc0.ext e1)
    (room_tw hc hroom e01 (by unfold tables; omega)) (op := B.opening) (sh := B.shifted) ⟨hop, False.elim⟩ ⟨hsh, False.elim⟩ x5
    (by rw [x1]; exact hch.ζ.ext e1) (by rw [x1]; exact hch.u.ext e1) x3 x4 (e01.lt hbl) False.elim
  obtain ⟨e2, -, R2⟩ := cs.sound _ _ hr
  obtain ⟨V, l1, hV, hl1, f1, f2, f3⟩ := R1 pin w (e2.sat _ _ hw) y hy hD hs
  have hvan : y.ζ ^ d.size - 1 = vanishing d y.ζ := (van_eq S.offset _).symm
  have hpl : ps.length / 2 ≤ d.size := by rw [← hl]; exact S.inputs.2
  rw [hvan] at hV
  obtain ⟨info, i0, i1, i2, i3, i4, i5, i6, i7⟩ := prepare_native S.good S.offset hT (ch := chal y) hζ
    (piRel_native S.good S.offset hpl hζ hV) hl1
  obtain ⟨g1, g2, g3⟩ := R2 pin w hw B.opening B.shifted _ y.ζ y.u (y.ζ * d.gen) _ (Option.some.inj hD.values.proof.opening).symm
    (Option.some.inj hD.values.proof.shifted).symm f3 (by rw [x1]; exact hy.ζ) (by rw [x1]; exact hy.u) f1 f2
  refine ⟨info, i0, g1, ?_, ?_⟩
  · rw [g2]
    unfold inner1 openA
    rw [i1, i6, i7]
    rfl
  · rw [g3]
    unfold inner2 openB
    rw [i1, i2, i3, i4, i5, i6, i7, mul_comm (chal y).u]
    rfl

theorem sameDomain_true {n : ℕ} {xs : List (VkVar Q)} (h : ∀ x ∈ xs, x.domSize = n) : sameDomain n xs = true := by
  unfold sameDomain
  rw [List.all_eq_true]
  intro x hx
  simp [h x hx]

theorem partialVerify_eq {l n : ℕ} (S : Setup I k K f T E d l n) {w : ℕ → ZMod p} {pi : List (FpElemVar p)}
    (hD : Data I τ w vks (pi ++ pi) b VK ps B)
    (hT : Turbo d ps.length VK B) {c : Circ p} (hc : Ready k c) {newDom : ℕ → Option (Domain (ZMod Q))}
    (hd : newDom d.size = some d) (βg g : ZMod p × ZMod p) :
    VerifierAgg.partialVerify K T newDom βg g vks pi b blind c =
      (challengesVars K I vks (List.replicate vks.length (pi ++ pi)) b none >>= fun ch =>
        prepareRest I d vks (pi ++ pi) b ch >>= fun x =>
        combine T I βg g b blind x >>= fun r => pure (r, x)) c := by
  have hkl := hD.values.keys.length_eq
  have hlen := hD.values.lens.1
  have hpl := (hD.pi_rel hT.pos).length_eq
  have hdom : ∀ x ∈ vks, x.domSize = d.size := len_of_rel (f := VkVar.domSize) (g := VKey.domSize) (fun a b g => g.2.1) hD.same hT.dom
  have hnum : ∀ x ∈ vks, x.numInputs = ps.length :=
    len_of_rel (f := VkVar.numInputs) (g := VKey.numInputs) (fun a b g => g.2.2) hD.same hT.inputs
  have hck : checkKeys d.size (vks.zip (List.replicate vks.length (pi ++ pi))) = true := by
    refine checkKeys_true (l := ps.length) _ ?_
    rintro ⟨a, b⟩ hx
    have h1 := List.of_mem_zip hx
    have h2 := List.mem_replicate.1 h1.2
    exact ⟨by rw [h2.2, hpl], hnum _ h1.1, hdom _ h1.1⟩
  cases vks with
  | nil => exact absurd (List.eq_nil_of_length_eq_zero hkl.symm) hT.pos
  | cons vk rest =>
    have h0 : vk.domSize = d.size := hdom vk (by simp)
    unfold VerifierAgg.partialVerify
    simp only
    rw [if_neg (by rw [hlen]; simp), if_neg (by rw [sameDomain_true fun x hx => by rw [h0]; exact hdom x (by simp [hx])]; simp),
      bind_eq]
    unfold rangeBitLen
    rw [hc.2.2]
    simp only
    rw [bind_eq]
    unfold liftE
    rw [S.info]
    simp only
    rw [h0, hd]
    simp only
    rw [preparePcs_eq K I d _ _ b none hlen hck]
    simp only [bind_eq]
    cases challengesVars K I (vk :: rest) (List.replicate (vk :: rest).length (pi ++ pi)) b none c with
    | error e => rfl
    | ok x => rfl

theorem forall2_of_mem {α β : Type} {R S : α → β → Prop} {l : List α} {m : List β} (h : List.Forall₂ R l m)
    (hi : ∀ x ∈ l, ∀ y, R x y → S x y) : List.Forall₂ S l m := by
  induction h with
  | nil => exact .nil
  | cons h0 _ ih => exact .cons (hi _ (by simp) _ h0) (ih fun x hx => hi x (by simp [hx]))

/-- the values of the old variables decide what keys, inputs and proof are stored -/
theorem Data.agree {w w' : ℕ → ZMod p} (hD : Data I τ w vks pi b VK ps B) {c : Circ p}
    (hE : Exist I c vks (List.replicate vks.length pi) b) (hn : VK ≠ []) (hw : ∀ i < c.numVars, w' i = w i) :
    Data I τ w' vks pi b VK ps B := by
  have shows : ∀ {l : List (ℕ × ℕ)} {g : List G}, PtsIn l c → Shows (coord τ) w l g → Shows (coord τ) w' l g := fun hl h =>
    forall2_of_mem h fun P hP g hg => by rw [hw _ (hl P hP).1, hw _ (hl P hP).2]; exact hg
  have enc : ∀ {x : FpElemVar p} {a : ZMod Q}, x.In c → Enc w x a → Enc w' x a := fun hx h => by
    unfold Enc; rw [hw _ hx.1, hw _ hx.2]; exact h
  have small : ∀ {x : FpElemVar p}, x.In c → Small I w x → Small I w' x := fun hx h => by
    unfold VerifierCircuit.Small; rw [hw _ hx.1, hw _ hx.2]; exact h
  have hvar : ∀ x ∈ pi, x.In c := fun x hx => by
    have h0 : vks.length ≠ 0 := by rw [hD.same.length_eq]; simpa using hn
    exact (hE.inputs pi (by rw [List.mem_replicate]; exact ⟨h0, rfl⟩) x hx).1
  obtain ⟨⟨v1, v2, ⟨q1, q2, q3, q4, q5, q6⟩, v4, v5, v6, v7⟩, hs, hi, he⟩ := hD
  refine ⟨⟨?_, ?_, ⟨?_, shows hE.prodPerm q2, ?_, shows hE.quot q4, ?_, ?_⟩, v4, v5, v6, v7⟩, hs, fun x hx => small (hvar x hx) (hi x hx), ?_⟩
  · exact forall2_of_mem v1 fun x hx y h => ⟨shows (hE.keys x hx).1 h.1, shows (hE.keys x hx).2 h.2⟩
  · exact forall2_of_mem v2 fun x hx y h => forall2_of_mem h fun z hz a ha => enc (hE.inputs x hx z hz).1 ha
  · exact forall2_of_mem q1 fun x hx y h => shows (hE.wires x hx) h
  · refine forall2_of_mem q3 fun x hx y h => ?_
    obtain ⟨k1, k2, k3⟩ := hE.evals x hx
    exact ⟨forall2_of_mem h.1 fun z hz a ha => enc (k1 z hz).1 ha, forall2_of_mem h.2.1 fun z hz a ha => enc (k2 z hz).1 ha,
      enc k3.1 h.2.2⟩
  · rw [hw _ (hE.opens b.opening (by simp)).1, hw _ (hE.opens b.opening (by simp)).2]; exact q5
  · rw [hw _ (hE.opens b.shifted (by simp)).1, hw _ (hE.opens b.shifted (by simp)).2]; exact q6
  · intro x hx
    obtain ⟨k1, k2, k3⟩ := hE.evals x hx
    obtain ⟨j1, j2, j3⟩ := he x hx
    exact ⟨fun z hz => small (k1 z hz).1 (j1 z hz), fun z hz => small (k2 z hz).1 (j2 z hz), small k3.1 j3⟩

theorem msg_none : msgElems p none = .ok [] := rfl

/-- what is true of any run of the transcript circuit -/
theorem chal_run {l n : ℕ} (S : Setup I k K f T E d l n) {c c0 : Circ p} (hc : Ready k c)
    {pis : List (List (FpElemVar p))} (hE : Exist I c vks pis b) {r : ChalVar p × Draws}
    (hrun : challengesVars K I vks pis b none c = .ok (r, c0)) :
    Ext c c0 ∧ (∃ y : Six (ZMod Q), ChalHol False I.mod y r.1 c0) ∧ r.2.msg = [] := by
  have tc := truncate_ok (p := p) (k := k) S.bitsp S.bitsQ
  have sp := challengesW_spec (H := False) (tr := codeTr) (P := ⟨_, _, _, _, _, _⟩) (g := ⟨_, _, _, _, _, _⟩) S.params.par S.hash
    S.bitsp S.bitsQ ⟨tc, tc, tc, tc, tc, tc⟩ (msg_none (p := p)) hc.ctxF hE.vkIn hE.proofIn
  obtain ⟨ed, ⟨-, -, -, b4, -, b6⟩, -⟩ := sp.sound _ _ hrun
  exact ⟨ed, ⟨_, b6⟩, List.map_eq_nil_iff.1 b4⟩

theorem hol_ew (hP : Par I Q k) {x : FpElemVar p} {a : ZMod Q} {c : Circ p} (h : Hol True I.mod a x c) : Ew I.mod c.val a x := by
  refine ⟨(h.2.2 trivial).small hP, ?_⟩
  unfold El
  rw [(h.2.2 trivial).num, ZMod.natCast_val, ZMod.cast_id]

/-! ## The theorems -/

variable {newDom : ℕ → Option (Domain (ZMod Q))} {PI : List (ZMod Q)} {c : Circ p}

/-- the challenges of the native verifier with the Rescue transcript -/
def native (τ : G →+ E.Pt) (f : Vec (ZMod p) → Vec (ZMod p)) (VK : List (VKey (ZMod Q) G G2)) (PI : List (List (ZMod Q)))
    (B : BProof (ZMod Q) G) : Chal (ZMod Q) := challenges (rescueOracle (coord τ) f) none VK PI B

theorem chal_honest {l n : ℕ} (S : Setup I k K f T E d l n) (hc : Ready k c) {pin : List (ZMod p)} (hs : checkSat c pin = .ok ())
    {pis : List (List (FpElemVar p))} {PIs : List (List (ZMod Q))} (hE : Exist I c vks pis b)
    (hin : Input (coord τ) c.val vks pis b VK PIs B) :
    ∃ y ch c0, native τ f VK PIs B = chal y ∧ challengesVars K I vks pis b none c = .ok (ch, c0) ∧ checkSat c0 pin = .ok () ∧
      Ready k c0 ∧ ChalHol True I.mod y ch.1 c0 := by
  obtain ⟨ch, c0, hrun, hs0, hc0, h⟩ := C81_honest S.params S.hash S.bitsp S.bitsQ hc hs hE hin (msg_none (p := p))
  have hN := native_challenges (f := f) S.bitsp S.bitsQ hin (msg_none (p := p))
  unfold native
  generalize challenges (rescueOracle (coord τ) f) none VK PIs B = N at h hN ⊢
  generalize (hashes f (dataOf c.val [] vks pis b)).map (low Q) = y at hN
  subst hN
  obtain ⟨a1, a2, a3, a4, a5, a6, a7, a8⟩ := h
  exact ⟨y, ch, c0, rfl, hrun, hs0, hc0, a1.hol, by rw [← sq]; exact a2.hol, by rw [← sq, ← pow_succ]; exact a3.hol, a4.hol,
    a5.hol, a6.hol, a7.hol, a8.hol⟩

theorem native_points (hT : Turbo d (PI ++ PI).length VK B) (hd : newDom d.size = some d) {info : PcsInfo (ZMod Q) G}
    {ch : List (VKey (ZMod Q) G G2) → List (List (ZMod Q)) → BProof (ZMod Q) G → Chal (ZMod Q)}
    (hi : prepare d VK (List.replicate VK.length (PI ++ PI)) B (ch VK (List.replicate VK.length (PI ++ PI)) B) = .ok info)
    (B0 g0 : G) (s : ZMod Q) :
    Plonk.partialVerify newDom ch B0 g0 VK PI B s = .ok (openA info + s • g0, openB info g0 + s • B0) := by
  rw [partialVerify_ok]
  refine ⟨d, info, ?_, hi, rfl⟩
  cases VK with
  | nil => exact absurd rfl hT.pos
  | cons vk rest => exact ⟨vk, rfl, by rw [hT.dom vk (by simp)]; exact hd⟩

/-- **C83**, honest values: if the builder stores native keys, a proof and public inputs, the circuit is built and satisfied
and returns the two points that the native `partial_verify` computes with the Rescue transcript and the same blinding factor.
What is stored meets the conditions on ranges of `C83_sound_partial`. -/
theorem C83_honest (S : Setup I k K f T E d (PI ++ PI).length VK.length) (hT : Turbo d (PI ++ PI).length VK B)
    (hd : newDom d.size = some d) (hc : Ready k c) (hroom : Room (tables VK B) c) {pin : List (ZMod p)} (hs : checkSat c pin = .ok ())
    (hE : Exist I c vks (List.replicate vks.length (pi ++ pi)) b) (hD : Data I τ c.val vks (pi ++ pi) b VK (PI ++ PI) B)
    (hbl : blind < c.numVars) (hb : (c.val blind).val < 2 ^ windowBits (Nat.size T.r)) (g0 B0 : G)
    (hζ : vanishing d (native τ f VK (List.replicate VK.length (PI ++ PI)) B).ζ ≠ 0) :
    ∃ r x c' P1 P2, VerifierAgg.partialVerify K T newDom (τ B0).1 (τ g0).1 vks pi b blind c = .ok ((r, x), c') ∧
      checkSat c' pin = .ok () ∧
      Plonk.partialVerify newDom (native τ f) B0 g0 VK PI B (((c.val blind).val : ℕ) : ZMod Q) = .ok (P1, P2) ∧
      ptAt c'.val r.1 = (τ P1).1 ∧ ptAt c'.val r.2 = (τ P2).1 ∧
      (∀ i < c.numVars, c'.val i = c.val i) ∧ (six x.ch).All (Small I c'.val) ∧ (∀ s ∈ x.sums, Small I c'.val s) ∧
      value Q I c'.val x.ch.ζ = (native τ f VK (List.replicate VK.length (PI ++ PI)) B).ζ := by
  have hP := S.params
  obtain ⟨y, ch, c0, hny, hrun, hs0, hc0, hch⟩ := chal_honest S hc hs hE hD.values
  rw [hny] at hζ
  obtain ⟨e0, ⟨y0, hch0⟩, -⟩ := chal_run S hc hE hrun
  have hs0' := (checkSat_ok hc0.1 pin).1 hs0
  have hx0 : Ctx True k c0 := hc0.ctx hs0'
  have hD0 : Data I τ c0.val vks (pi ++ pi) b VK (PI ++ PI) B := hD.agree hE hT.pos fun i hi => e0.val i hi
  have sp := rest_spec (H := True) S hD0 hT rfl rfl hx0 (Exist.ext hE e0) (fun _ => rfl) hch (fun _ => pow_ne S.offset hζ)
  obtain ⟨x, c1, hx, hs1⟩ := sp.complete trivial pin hs0'
  obtain ⟨e1, ⟨x1, -, x3, x4, x5, x6⟩, -⟩ := sp.sound _ _ hx
  have e01 := e0.trans e1
  have hlen : x.comm.length ≤ 25 * VK.length + B.quot.length := by
    rw [x5.length_eq]
    exact commVals'_length hT _ _ _ _
  have hop : HolP True (fun g => (τ g).1) B.opening b.opening c1 :=
    ⟨PIn.ext e01 (hE.opens b.opening (by simp)), fun _ => by
      have h := hE.opens b.opening (by simp)
      unfold ptAt
      rw [e01.val _ h.1, e01.val _ h.2]
      exact (Option.some.inj hD.values.proof.opening).symm⟩
  have hsh : HolP True (fun g => (τ g).1) B.shifted b.shifted c1 :=
    ⟨PIn.ext e01 (hE.opens b.shifted (by simp)), fun _ => by
      have h := hE.opens b.shifted (by simp)
      unfold ptAt
      rw [e01.val _ h.1, e01.val _ h.2]
      exact (Option.some.inj hD.values.proof.shifted).symm⟩
  have cs := combine_tspec (H := True) (N := 10 * VK.length) (b := b) (blind := blind) hP.par S.msm τ (g0 := g0) (B0 := B0) rfl rfl (hx0.ext e1)
    (room_tw hc hroom e01 (by unfold tables; omega)) hop hsh x5
    (by rw [x1]; exact hch.ζ.ext e1) (by rw [x1]; exact hch.u.ext e1) x3 x4 (e01.lt hbl) (fun _ => by rw [e01.val _ hbl]; exact hb)
  obtain ⟨r, c', hr, hs'⟩ := cs.complete trivial pin hs1
  obtain ⟨e2, -, -⟩ := cs.sound _ _ hr
  have hag : ∀ i < c.numVars, c'.val i = c.val i := fun i hi => by rw [e2.val _ (e01.lt hi), e01.val _ hi]
  have hew : ChalEw I.mod c'.val y ch.1 := by
    have g : ∀ {a : ZMod Q} {v : FpElemVar p}, Hol True I.mod a v c0 → Ew I.mod c'.val a v := fun h =>
      hol_ew hP.par (Hol.text (h.ext e1) e2)
    exact ⟨g hch.α, g hch.α2, g hch.α3, g hch.β, g hch.γ, g hch.ζ, g hch.v, g hch.u⟩
  have hsm : ∀ s ∈ x.sums, Small I c'.val s := fun s hs => by
    obtain ⟨z, hz⟩ := x6 s hs
    exact (hol_ew hP.par (Hol.text hz e2)).1
  obtain ⟨info, i0, -, i2, i3⟩ := points S (hD.agree hE hT.pos hag) hT rfl rfl hc e0 hroom hE hbl hch0 hx hr hs' hew hsm hζ
  rw [← hny] at i0
  refine ⟨r, x, c', _, _, ?_, (checkSat_ok e2.wf pin).2 hs', native_points hT hd i0 B0 g0 _, ?_, ?_, hag, ?_, hsm, ?_⟩
  · rw [partialVerify_eq S hD hT hc hd, bind_of_ok hrun, bind_of_ok hx, bind_of_ok hr]
    rfl
  · rw [i2, hag _ hbl]
  · rw [i3, hag _ hbl]
  · rw [x1]
    exact ⟨hew.β.1, hew.γ.1, hew.α.1, hew.ζ.1, hew.v.1, hew.u.1⟩
  · rw [x1, hny]
    exact hew.ζ.2

/-- **C83**, any assignment: in every satisfying assignment that holds native keys, a proof and public inputs in range, with
the limbs of the challenges and of the unchecked sums in range and a challenge `ζ` outside the domain, the points returned are
the blinded points the native verifier pairs when its challenges are numbers `n` cut from the native hashes `h`. -/
theorem C83_sound_partial (S : Setup I k K f T E d (PI ++ PI).length VK.length) (hT : Turbo d (PI ++ PI).length VK B)
    (hk1 : 248 % k ≠ 0) (hk2 : 129 % k ≠ 0) (hk3 : k < 129)
    (hd : newDom d.size = some d) (hc : Ready k c) (hroom : Room (tables VK B) c)
    (hE : Exist I c vks (List.replicate vks.length (pi ++ pi)) b) (hbl : blind < c.numVars) {g0 B0 : G}
    {r : (ℕ × ℕ) × (ℕ × ℕ)} {x : PcsVar p} {c' : Circ p}
    (hrun : VerifierAgg.partialVerify K T newDom (τ B0).1 (τ g0).1 vks pi b blind c = .ok ((r, x), c'))
    {pin : List (ZMod p)} {w : ℕ → ZMod p} (hw : Sat c' pin w) (hD : Data I τ w vks (pi ++ pi) b VK (PI ++ PI) B)
    (hch : (six x.ch).All (Small I w)) (hsum : ∀ s ∈ x.sums, Small I w s)
    (hζ : vanishing d (value Q I w x.ch.ζ) ≠ 0) :
    ∃ (h : Six (ZMod p)) (n : Six ℕ) (P1 P2 : G),
      native τ f VK (List.replicate VK.length (PI ++ PI)) B = chal (h.map (low Q)) ∧ Six.All₂ Cut h n ∧
      (w blind).val < 2 ^ windowBits (Nat.size T.r) ∧
      Plonk.partialVerify newDom (fun _ _ _ => chal (n.map (Nat.cast : ℕ → ZMod Q))) B0 g0 VK PI B (((w blind).val : ℕ) : ZMod Q) =
        .ok (P1, P2) ∧ ptAt w r.1 = (τ P1).1 ∧ ptAt w r.2 = (τ P2).1 := by
  have hP := S.params
  rw [partialVerify_eq S hD hT hc hd] at hrun
  obtain ⟨ch, c0, h0, hrun⟩ := bind_ok hrun
  obtain ⟨x', c1, h1, hrun⟩ := bind_ok hrun
  obtain ⟨r', c2, h2, hrun⟩ := bind_ok hrun
  have hpure : ((r', x'), c2) = ((r, x), c') := Except.ok.inj hrun
  simp only [Prod.mk.injEq] at hpure
  obtain ⟨⟨rfl, rfl⟩, rfl⟩ := hpure
  obtain ⟨e0, ⟨y0, hch0⟩, hmsg⟩ := chal_run S hc hE h0
  have hc0 : Ctx False k c0 := hc.ctxF.ext e0
  have sp := rest_spec (H := False) S hD hT rfl rfl hc0 (Exist.ext hE e0) False.elim hch0 False.elim
  obtain ⟨e1, ⟨x1, -, x3, x4, x5, -⟩, -⟩ := sp.sound _ _ h1
  have e01 := e0.trans e1
  have hlen : x'.comm.length ≤ 25 * VK.length + B.quot.length := by
    rw [x5.length_eq]
    exact commVals'_length hT _ _ _ _
  have cs := combine_tspec (H := False) (N := 10 * VK.length) (b := b) (blind := blind) hP.par S.msm τ (g0 := g0) (B0 := B0) rfl rfl (hc0.ext e1)
    (room_tw hc hroom e01 (by unfold tables; omega)) (op := B.opening) (sh := B.shifted)
    ⟨PIn.ext e01 (hE.opens b.opening (by simp)), False.elim⟩ ⟨PIn.ext e01 (hE.opens b.shifted (by simp)), False.elim⟩ x5
    (by rw [x1]; exact hch0.ζ.ext e1) (by rw [x1]; exact hch0.u.ext e1) x3 x4 (e01.lt hbl) False.elim
  obtain ⟨e2, -, -⟩ := cs.sound _ _ h2
  have hw0 : Sat c0 pin w := e1.sat _ _ (e2.sat _ _ hw)
  obtain ⟨h, q1, ⟨n, q2, q3⟩, q4⟩ := C81_sound_partial hP S.hash S.bitsp S.bitsQ hk1 hk2 hk3 hc hE (msg_none (p := p)) h0 hw0 hD.values
    (e' := none) (by rw [hmsg]; rfl)
  rw [x1] at hch hζ
  obtain ⟨s1, s2, s3, s4, s5, s6⟩ := hch
  obtain ⟨t1, t2, t3, t4, t5, t6⟩ := q3
  obtain ⟨u1, u2⟩ := q4 s3
  have v3 : value Q I w ch.1.α = (n.α : ZMod Q) := t3.2 s3
  have hew : ChalEw I.mod w (n.map (Nat.cast : ℕ → ZMod Q)) ch.1 :=
    ⟨⟨s3, v3⟩, ⟨u1.1, by rw [← sq]; exact u1.2.trans (by rw [v3]; rfl)⟩,
      ⟨u2.1, by rw [← sq, ← pow_succ]; exact u2.2.trans (by rw [v3]; rfl)⟩,
      ⟨s1, t1.2 s1⟩, ⟨s2, t2.2 s2⟩, ⟨s4, t4.2 s4⟩, ⟨s5, t5.2 s5⟩, ⟨s6, t6.2 s6⟩⟩
  obtain ⟨info, i0, i1, i2, i3⟩ := points S hD hT rfl rfl hc e0 hroom hE hbl hch0 h1 h2 hw hew hsum (by
    have : value Q I w ch.1.ζ = (n.ζ : ZMod Q) := t4.2 s4
    rw [this] at hζ
    exact hζ)
  exact ⟨h, n, _, _, q1, q2, i1, native_points hT hd i0 B0 g0 _, i2, i3⟩

/-- no hash has two numbers below `2^377` -/
def Canon (h : Six (ZMod p)) : Prop := h.All fun x => 2 ^ 377 ≤ x.val + p

theorem cut_canon {h : Six (ZMod p)} {n : Six ℕ} (hc : Canon h) (hn : Six.All₂ Cut h n) :
    n.map (Nat.cast : ℕ → ZMod Q) = h.map (low Q) := by
  obtain ⟨c1, c2, c3, c4, c5, c6⟩ := hc
  obtain ⟨n1, n2, n3, n4, n5, n6⟩ := hn
  have g : ∀ {x : ZMod p} {n : ℕ}, 2 ^ 377 ≤ x.val + p → Cut x n → (n : ZMod Q) = low Q x := fun hx hn => by
    rcases hn with hn | ⟨h1, -⟩
    · rw [hn]; rfl
    · omega
  simp only [Six.map, g c1 n1, g c2 n2, g c3 n3, g c4 n4, g c5 n5, g c6 n6]

/-! ## Keys -/

/-- a key with the values of the assignment -/
def ShowsKey (τ : G →+ E.Pt) (w : ℕ → ZMod p) (x : VkVar Q) (y : VKey (ZMod Q) G G2) : Prop :=
  ShowsVk (coord τ) w x y ∧ SameKey x y ∧ x.merged = y.merged

theorem adds_shows {w : ℕ → ZMod p} : ∀ {l m r : List (ℕ × ℕ)} {gs hs : List G}, Shows (coord τ) w l gs → Shows (coord τ) w m hs →
    List.Forall₂ (Adds E w) r (l.zip m) → Shows (coord τ) w r ((gs.zip hs).map fun x => x.1 + x.2)
  | [], _, r, gs, hs, h1, _, h => by
    cases h1
    rw [List.zip_nil_left] at h
    cases h
    exact .nil
  | _ :: _, [], r, gs, hs, _, h2, h => by
    cases h2
    rw [List.zip_nil_right] at h
    cases h
    rw [List.zip_nil_right]
    exact .nil
  | a :: l, b :: m, r, gs, hs, h1, h2, h => by
    cases h1 with
    | cons a1 t1 =>
    cases h2 with
    | cons a2 t2 =>
    rw [List.zip_cons_cons] at h
    cases h with
    | cons a3 t3 =>
    refine .cons ?_ (adds_shows t1 t2 t3)
    have := a3 _ _ (Option.some.inj a1).symm (Option.some.inj a2).symm
    rw [← map_add] at this
    exact congrArg some this.symm

theorem shows_pairs {w : ℕ → ZMod p} {l m : List (ℕ × ℕ)} {gs hs : List G} (h1 : Shows (coord τ) w l gs) (h2 : Shows (coord τ) w m hs) :
    ∀ y ∈ l.zip m, OnPair E w y := by
  have g : ∀ {l : List (ℕ × ℕ)} {gs : List G}, Shows (coord τ) w l gs → ∀ P ∈ l, ∃ A : E.Pt, ptAt w P = A.1 := fun h => by
    induction h with
    | nil => simp
    | cons h0 _ ih =>
      intro P hP
      rcases List.mem_cons.1 hP with rfl | hP
      · exact ⟨_, (Option.some.inj h0).symm⟩
      · exact ih P hP
  intro y hy
  obtain ⟨A, hA⟩ := g h1 _ (List.of_mem_zip hy).1
  obtain ⟨B, hB⟩ := g h2 _ (List.of_mem_zip hy).2
  exact ⟨A, B, hA, hB⟩

theorem mergeVk_ok {x y v : VKey (ZMod Q) G G2} (h : mergeVk x y = .ok v) : x.merged = false ∧ y.merged = false ∧
    x.domSize = y.domSize ∧ x.numInputs = y.numInputs := by
  unfold mergeVk at h
  split_ifs at h with h1 h2 h3 h4
  refine ⟨?_, ?_, not_not.1 h2, not_not.1 h3⟩
  · cases hx : x.merged <;> simp [hx] at h1 ⊢
  · cases hx : y.merged <;> simp [hx] at h1 ⊢

/-- the merged key -/
theorem merged_shows {w : ℕ → ZMod p} {a b' v : VkVar Q} {x y : VKey (ZMod Q) G G2} (ha : ShowsKey τ w a x) (hb : ShowsKey τ w b' y)
    (hl : x.lookup = none ∧ y.lookup = none) (hn : Numbers v (a, b')) (hs : VerifierAgg.Sum E w v (a, b')) :
    ∃ z, mergeVk x y = .ok z ∧ ShowsKey τ w v z := by
  obtain ⟨⟨n1, n2, n3, n4⟩, n5, n6, n7, n8⟩ := hn
  obtain ⟨⟨a1, a2⟩, ⟨a3, a4, a5⟩, a6⟩ := ha
  obtain ⟨⟨b1, b2⟩, ⟨b3, b4, b5⟩, b6⟩ := hb
  simp only at n1 n2 n3 n4 n6 n7 n8
  unfold mergeVk
  rw [if_neg (by rw [← a6, ← b6, n1, n2]; simp), if_neg (by rw [← a4, ← b4, n3]; simp), if_neg (by rw [← a5, ← b5, n4]; simp),
    if_neg (by rw [hl.1, hl.2]; simp)]
  exact ⟨_, rfl, ⟨adds_shows a1 b1 hs.2, adds_shows a2 b2 hs.1⟩, ⟨n8.trans a3, n6.trans a4, by rw [n7, a5, b5]⟩, n5⟩

theorem merged_all {w : ℕ → ZMod p} : ∀ {as bs vs : List (VkVar Q)} {xs ys : List (VKey (ZMod Q) G G2)},
    List.Forall₂ (ShowsKey τ w) as xs → List.Forall₂ (ShowsKey τ w) bs ys → (∀ x ∈ xs, x.lookup = none) → (∀ x ∈ ys, x.lookup = none) →
    List.Forall₂ Numbers vs (as.zip bs) → List.Forall₂ (VerifierAgg.Sum E w) vs (as.zip bs) →
    ∃ zs, mergeVks (xs.zip ys) = .ok zs ∧ List.Forall₂ (ShowsKey τ w) vs zs
  | [], _, vs, xs, ys, h1, _, _, _, h, _ => by
    cases h1
    rw [List.zip_nil_left] at h
    cases h
    exact ⟨[], rfl, .nil⟩
  | _ :: _, [], vs, xs, ys, _, h2, _, _, h, _ => by
    cases h2
    rw [List.zip_nil_right] at h
    cases h
    rw [List.zip_nil_right]
    exact ⟨[], rfl, .nil⟩
  | a :: as, b :: bs, vs, xs, ys, h1, h2, l1, l2, h, h' => by
    cases h1 with
    | cons a1 t1 =>
    cases h2 with
    | cons a2 t2 =>
    rw [List.zip_cons_cons] at h h'
    cases h with
    | cons a3 t3 =>
    cases h' with
    | cons a4 t4 =>
    obtain ⟨z, z1, z2⟩ := merged_shows a1 a2 ⟨l1 _ (by simp), l2 _ (by simp)⟩ a3 a4
    obtain ⟨zs, y1, y2⟩ := merged_all t1 t2 (fun x hx => l1 x (by simp [hx])) (fun x hx => l2 x (by simp [hx])) t3 t4
    refine ⟨z :: zs, ?_, .cons z2 y2⟩
    rw [List.zip_cons_cons, mergeVks, z1]
    simp only
    rw [y1]

theorem can_merge {w : ℕ → ZMod p} : ∀ {as bs : List (VkVar Q)} {xs ys zs : List (VKey (ZMod Q) G G2)},
    List.Forall₂ (ShowsKey τ w) as xs → List.Forall₂ (ShowsKey τ w) bs ys → mergeVks (xs.zip ys) = .ok zs →
    ∀ x ∈ as.zip bs, CanMerge x.1 x.2 ∧ OnKeys E w x
  | [], _, _, _, _, _, _, _ => by simp
  | _ :: _, [], _, _, _, _, _, _ => by simp
  | a :: as, b :: bs, xs, ys, zs, h1, h2, h => by
    cases h1 with
    | cons a1 t1 =>
    cases h2 with
    | cons a2 t2 =>
    rename_i x xs y ys
    rw [List.zip_cons_cons, mergeVks] at h
    cases hm : mergeVk x y with
    | error e => rw [hm] at h; cases h
    | ok z =>
      rw [hm] at h
      simp only at h
      cases hr : mergeVks (xs.zip ys) with
      | error e => rw [hr] at h; cases h
      | ok r =>
        intro q hq
        rw [List.zip_cons_cons] at hq
        rcases List.mem_cons.1 hq with rfl | hq
        · obtain ⟨m1, m2, m3, m4⟩ := mergeVk_ok hm
          obtain ⟨⟨p1, p2⟩, ⟨-, p4, p5⟩, p6⟩ := a1
          obtain ⟨⟨q1, q2⟩, ⟨-, q4, q5⟩, q6⟩ := a2
          exact ⟨⟨p6.trans m1, q6.trans m2, by rw [p4, q4, m3], by rw [p5, q5, m4]⟩, shows_pairs p2 q2, shows_pairs p1 q1⟩
        · exact can_merge t1 t2 hr q hq

/-- **C83**, keys, honest values: if the builder stores the keys of two lists and the native `aggregate_verify_keys` merges
them, the circuit is built and satisfied and returns the merged keys. -/
theorem C83_keys_honest (hE : OnTE T E) (hc : WF c) {pin : List (ZMod p)} (hs : checkSat c pin = .ok ()) {as bs : List (VkVar Q)}
    {VA VB VK : List (VKey (ZMod Q) G G2)} (ha : ∀ x ∈ as, KeyIn x c) (hb : ∀ x ∈ bs, KeyIn x c)
    (hA : List.Forall₂ (ShowsKey τ c.val) as VA) (hB : List.Forall₂ (ShowsKey τ c.val) bs VB) (hV : aggregateVks VA VB = .ok VK) :
    ∃ vks c', aggregateKeys T as bs c = .ok (vks, c') ∧ checkSat c' pin = .ok () ∧ (∀ x ∈ vks, KeyIn x c') ∧
      List.Forall₂ (ShowsKey τ c'.val) vks VK := by
  unfold aggregateVks at hV
  split_ifs at hV with hl
  have hz : ∀ x ∈ as.zip bs, KeyIn x.1 c ∧ KeyIn x.2 c := fun x hx => ⟨ha _ (List.of_mem_zip hx).1, hb _ (List.of_mem_zip hx).2⟩
  have sp := mergeAll_spec hE hc hz
  obtain ⟨vks, c', hr, hs'⟩ := sp.complete (can_merge hA hB hV) pin ((checkSat_ok hc pin).1 hs)
  obtain ⟨e, ⟨b1, b2⟩, R⟩ := sp.sound _ _ hr
  refine ⟨vks, c', ?_, (checkSat_ok e.wf pin).2 hs', b1, ?_⟩
  · unfold aggregateKeys
    rw [if_neg (by rw [hA.length_eq, hB.length_eq]; exact hl)]
    exact hr
  have tr : ∀ {l : List (VkVar Q)} {V : List (VKey (ZMod Q) G G2)}, (∀ x ∈ l, KeyIn x c) → List.Forall₂ (ShowsKey τ c.val) l V →
      List.Forall₂ (ShowsKey τ c'.val) l V := fun hl h => forall2_of_mem h fun x hx y hy =>
    ⟨⟨forall2_of_mem hy.1.1 fun P hP g hg => by rw [e.val _ ((hl x hx).2 P hP).1, e.val _ ((hl x hx).2 P hP).2]; exact hg,
      forall2_of_mem hy.1.2 fun P hP g hg => by rw [e.val _ ((hl x hx).1 P hP).1, e.val _ ((hl x hx).1 P hP).2]; exact hg⟩, hy.2⟩
  have lk : ∀ {xs ys zs : List (VKey (ZMod Q) G G2)}, xs.length = ys.length → mergeVks (xs.zip ys) = .ok zs →
      (∀ x ∈ xs, x.lookup = none) ∧ ∀ x ∈ ys, x.lookup = none := by
    intro xs
    induction xs with
    | nil =>
      intro ys zs h _
      rw [List.length_nil, eq_comm, List.length_eq_zero_iff] at h
      subst h
      exact ⟨by simp, by simp⟩
    | cons x xs ih =>
      intro ys zs h hm
      cases ys with
      | nil => simp at h
      | cons y ys =>
        rw [List.zip_cons_cons, mergeVks] at hm
        cases h1 : mergeVk x y with
        | error e => rw [h1] at hm; cases hm
        | ok z =>
          rw [h1] at hm
          simp only at hm
          cases h2 : mergeVks (xs.zip ys) with
          | error e => rw [h2] at hm; cases hm
          | ok r =>
            obtain ⟨i1, i2⟩ := ih (by simpa using h) h2
            have : x.lookup = none ∧ y.lookup = none := by
              unfold mergeVk at h1
              split_ifs at h1 with q1 q2 q3 q4
              cases hx : x.lookup <;> cases hy : y.lookup <;> simp [hx, hy] at q4 ⊢
            refine ⟨fun v hv => ?_, fun v hv => ?_⟩
            · rcases List.mem_cons.1 hv with rfl | hv
              · exact this.1
              · exact i1 v hv
            · rcases List.mem_cons.1 hv with rfl | hv
              · exact this.2
              · exact i2 v hv
  obtain ⟨l1, l2⟩ := lk (not_not.1 hl) hV
  obtain ⟨zs, z1, z2⟩ := merged_all (tr ha hA) (tr hb hB) l1 l2 b2 (R pin c'.val hs')
  rw [hV] at z1
  cases z1
  exact z2

/-- **C83**, keys, any assignment: if the circuit is built, then in every satisfying assignment in which the variables are keys
without lookups, the native `aggregate_verify_keys` merges them and the circuit returns the merged keys. -/
theorem C83_keys_sound (hE : OnTE T E) (hc : WF c) {as bs vks : List (VkVar Q)} {VA VB : List (VKey (ZMod Q) G G2)}
    (ha : ∀ x ∈ as, KeyIn x c) (hb : ∀ x ∈ bs, KeyIn x c) {c' : Circ p} (hrun : aggregateKeys T as bs c = .ok (vks, c'))
    {pin : List (ZMod p)} {w : ℕ → ZMod p} (hw : Sat c' pin w)
    (hA : List.Forall₂ (ShowsKey τ w) as VA) (hB : List.Forall₂ (ShowsKey τ w) bs VB) (lA : ∀ x ∈ VA, x.lookup = none)
    (lB : ∀ x ∈ VB, x.lookup = none) :
    ∃ VK, aggregateVks VA VB = .ok VK ∧ List.Forall₂ (ShowsKey τ w) vks VK := by
  unfold aggregateKeys at hrun
  by_cases hl : as.length = bs.length
  · rw [if_neg (not_not.2 hl)] at hrun
    have hz : ∀ x ∈ as.zip bs, KeyIn x.1 c ∧ KeyIn x.2 c := fun x hx => ⟨ha _ (List.of_mem_zip hx).1, hb _ (List.of_mem_zip hx).2⟩
    obtain ⟨e, ⟨b1, b2⟩, R⟩ := (mergeAll_spec hE hc hz).sound _ _ hrun
    obtain ⟨zs, z1, z2⟩ := merged_all hA hB lA lB b2 (R pin w hw)
    refine ⟨zs, ?_, z2⟩
    unfold aggregateVks
    rw [if_neg (by rw [← hA.length_eq, ← hB.length_eq]; exact not_not.2 hl)]
    exact z1
  · rw [if_pos hl] at hrun
    cases hrun

end core

end Verif.Props.VerifierPoints
