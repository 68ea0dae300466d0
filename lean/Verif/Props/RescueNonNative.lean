import Verif.Circuit.RescueNonNativeAdv
import Verif.Props.VerifierCircuit
import Verif.Props.SchnorrCircuit

/-!
# C85: Rescue over another field

The gadgets of `rescue/src/gadgets/non_native.rs` compute Rescue over `ZMod Q` on pairs of limbs in a circuit over `ZMod p`. Their
results are compared with the native permutation, sponges and cipher (`Verif.Rescue`). Vocabulary of C80: `Stores`, `Var`, `Small`,
`value`.
-/

set_option linter.unusedSectionVars false

namespace Verif.Props.RescueNonNative

open Verif.Circuit Verif.Circuit.VerifierPoly Verif.Circuit.RescueNN
open Verif.Circuit.VerifierAgg (Ew)
open Verif.Rescue (Vec Consts PRP)
open Verif.Props.VerifierCircuit (Params Ready Var Stores Small value Ready.ctx Ready.ctxF stores_of_hol hol_list var_list)

variable {p Q k : ℕ}

/-- the builder stores a state -/
def StoresS (I : Info p) (c : Circ p) (S : NState p) (a : Vec (ZMod Q)) : Prop :=
  (∀ i, Stores I c (S.s.get i) (a.get i)) ∧ S.mod = I.mod

/-- the limbs of a state are variables of the circuit -/
def VarS (I : Info p) (c : Circ p) (S : NState p) : Prop := (∀ i, Var I c (S.s.get i)) ∧ S.mod = I.mod

/-- all limbs in range -/
def SmallS (I : Info p) (w : ℕ → ZMod p) (s : Vec (FpElemVar p)) : Prop := ∀ i, Small I w (s.get i)

/-- the state limbs stand for -/
def valueS (Q : ℕ) (I : Info p) (w : ℕ → ZMod p) (S : NState p) : Vec (ZMod Q) := S.s.map (value Q I w)

/-- the length of the limbs `create_rescue_state_variable` chooses -/
def limbBits (Q k : ℕ) : ℕ := (Nat.size Q / 2 / k + 1) * k

/-- the parameters `create_rescue_state_variable` chooses -/
def info (p Q k : ℕ) : Info p :=
  ⟨limbBits Q k, some (2 ^ limbBits Q k), (Q : ℕ),
    ⟨((Q % 2 ^ limbBits Q k : ℕ) : ZMod p), ((Q / 2 ^ limbBits Q k : ℕ) : ZMod p), limbBits Q k, 2 ^ limbBits Q k⟩⟩

theorem lt_limbs (Q : ℕ) {k : ℕ} (hk : 2 ≤ k) : Q < 2 ^ (2 * limbBits Q k) := by
  refine lt_of_lt_of_le (Nat.lt_size_self Q) (Nat.pow_le_pow_right (by norm_num) ?_)
  unfold limbBits
  have h1 := Nat.div_add_mod (Nat.size Q / 2) k
  have h2 := Nat.mod_lt (Nat.size Q / 2) (show 0 < k by omega)
  have h3 : (Nat.size Q / 2 / k + 1) * k = k * (Nat.size Q / 2 / k) + k := by ring
  rw [h3]
  generalize k * (Nat.size Q / 2 / k) = n at *
  omega

/-- **C85, the parameters**: they meet the conditions of the modular arithmetic if the native field is large enough -/
theorem C85_parameters (hQ : 0 < Q) (hk : 2 ≤ k) (hw : 2 ^ (2 * limbBits Q k + k + 2) ≤ p) : Params (info p Q k) Q k := by
  have hm : 0 < limbBits Q k := by unfold limbBits; positivity
  have h1 : 2 ^ limbBits Q k < p := lt_of_lt_of_le (Nat.pow_lt_pow_right (by norm_num) (by omega)) hw
  have h2 : Q / 2 ^ limbBits Q k < 2 ^ limbBits Q k := by
    rw [Nat.div_lt_iff_lt_mul (by positivity), ← pow_add, ← two_mul]; exact lt_limbs Q hk
  have h3 : Q % 2 ^ limbBits Q k < 2 ^ limbBits Q k := Nat.mod_lt _ (by positivity)
  have v0 : ((Q % 2 ^ limbBits Q k : ℕ) : ZMod p).val = Q % 2 ^ limbBits Q k := ZMod.val_natCast_of_lt (by omega)
  have v1 : ((Q / 2 ^ limbBits Q k : ℕ) : ZMod p).val = Q / 2 ^ limbBits Q k := ZMod.val_natCast_of_lt (by omega)
  have hn : Verif.Props.ModArith.num (info p Q k).mod.m (Verif.Props.ModArith.parts (info p Q k).mod) = Q := by
    show ((Q % 2 ^ limbBits Q k : ℕ) : ZMod p).val + 2 ^ limbBits Q k * ((Q / 2 ^ limbBits Q k : ℕ) : ZMod p).val = Q
    rw [v0, v1, Nat.mod_add_div]
  refine ⟨⟨⟨?_, ?_⟩, rfl, ?_, ?_, hm, hk, ?_⟩, rfl, rfl, hn, hw⟩
  · show ((Q % 2 ^ limbBits Q k : ℕ) : ZMod p).val < _
    rw [v0]; exact h3
  · show ((Q / 2 ^ limbBits Q k : ℕ) : ZMod p).val < _
    rw [v1]; exact h2
  · rw [hn]; exact hQ
  · show k ∣ limbBits Q k
    exact Dvd.intro_left _ rfl
  · exact le_trans (Nat.pow_le_pow_right (by norm_num) (by show 2 * limbBits Q k + k ≤ _; omega)) hw

section
variable [hp : Fact p.Prime] [hQ : Fact Q.Prime] {I : Info p} {c : Circ p}

theorem StoresS.holN {H : Prop} {S : NState p} {a : Vec (ZMod Q)} (h : StoresS I c S a) : HolN H I a S c :=
  ⟨fun i => (h.1 i).hol, h.2⟩

theorem VarS.holN {S : NState p} (h : VarS I c S) (a : Vec (ZMod Q)) : HolN False I a S c := ⟨fun i => (h.1 i).hol _, h.2⟩

theorem storesS_of_holN {S : NState p} {a : Vec (ZMod Q)} (h : HolN True I a S c) : StoresS I c S a :=
  ⟨fun i => stores_of_hol (h.s i), h.mod⟩

theorem get_map' {α β : Type} (f : α → β) (v : Vec α) (i : Fin 4) : (v.map f).get i = f (v.get i) := by
  fin_cases i <;> rfl

theorem ew_of_small {w : ℕ → ZMod p} {x : FpElemVar p} (h : Small I w x) : Ew I.mod w (value Q I w x) x := ⟨h, rfl⟩

theorem ewS_of_small {w : ℕ → ZMod p} {S : NState p} (h : SmallS I w S.s) : EwS I w (valueS Q I w S) S := by
  intro i
  unfold valueS
  rw [get_map']
  exact ew_of_small (h i)

theorem ew_value {w : ℕ → ZMod p} {x : FpElemVar p} {a : ZMod Q} (h : Ew I.mod w a x) : Small I w x ∧ value Q I w x = a := h

theorem ewS_value {w : ℕ → ZMod p} {S : NState p} {a : Vec (ZMod Q)} (h : EwS I w a S) :
    SmallS I w S.s ∧ valueS Q I w S = a := by
  refine ⟨fun i => (h i).1, Vec.get_injective (funext fun i => ?_)⟩
  unfold valueS
  rw [get_map']
  exact (ew_value (h i)).2

theorem ew_list {w : ℕ → ZMod p} {xs : List (FpElemVar p)} (h : ∀ x ∈ xs, Small I w x) :
    List.Forall₂ (fun x a => Ew I.mod w a x) xs (xs.map (value Q I w)) := by
  induction xs with
  | nil => exact .nil
  | cons x xs ih => exact .cons (ew_of_small (h x (by simp))) (ih fun y hy => h y (by simp [hy]))

theorem ew_list_value {w : ℕ → ZMod p} {xs : List (FpElemVar p)} {as : List (ZMod Q)}
    (h : List.Forall₂ (fun x a => Ew I.mod w a x) xs as) : (∀ x ∈ xs, Small I w x) ∧ xs.map (value Q I w) = as := by
  induction h with
  | nil => exact ⟨by simp, rfl⟩
  | cons hx _ ih =>
    refine ⟨?_, by rw [List.map_cons, ih.2, (ew_value hx).2]⟩
    intro y hy
    rcases List.mem_cons.1 hy with rfl | hy
    · exact hx.1
    · exact ih.1 y hy

theorem stores_list {xs : List (FpElemVar p)} {as : List (ZMod Q)}
    (h : List.Forall₂ (fun x a => Hol True I.mod a x c) xs as) : List.Forall₂ (Stores I c) xs as :=
  h.imp fun _ _ g => stores_of_hol g

theorem stores_value (h : Params I Q k) {S : NState p} {a : Vec (ZMod Q)} (hS : StoresS I c S a) :
    SmallS I c.val S.s ∧ valueS Q I c.val S = a := by
  refine ⟨fun i => St.small h.par (hS.1 i).2, Vec.get_injective (funext fun i => ?_)⟩
  unfold valueS
  rw [get_map']
  exact Verif.Props.VerifierCircuit.st_value (hS.1 i).2

theorem Ready.of_ext {c' : Circ p} (hc : Ready k c) (e : Ext c c') : Ready k c' := ⟨e.wf, hc.2.1.ext e, by rw [e.ultra, hc.2.2]⟩

/-! ## `create_rescue_state_variable` -/

theorem info_new (h : Params (info p Q k) Q k) :
    FpElem.new (Q : ZMod p) (limbBits Q k) none = .ok (info p Q k).mod :=
  FpElem.new_mul (q := (info p Q k).mod) h.par.mul h.par.q_lt_p

theorem createState_spec {H : Prop} (h : Params (info p Q k) Q k) (hc : Ctx H k c) (a : Vec (ZMod Q)) :
    Spec (createStateNN a) c H (fun S c' => HolN H (info p Q k) a S c') (fun S w => ∀ i, (S.s.get i).Small (info p Q k).mod w) := by
  unfold createStateNN
  refine Spec.of_eq (rangeBitLen_eq hc.ultra) ?_
  have h2 := h.mul.two
  rw [if_neg (by omega)]
  refine Spec.liftE_bind (info_new h) ?_
  have hl : ∀ i, (a.get i).val < p := fun i => (ZMod.val_lt _).trans h.par.q_lt_p
  have hsw : vecM (switch p) a c = .ok (a.map fun x => ((x.val : ℕ) : ZMod p), c) := by
    refine vecM_pure fun i => ?_
    rw [get_map']; unfold switch; rw [switch_of_lt _ (hl i)]; rfl
  refine Spec.of_eq hsw ?_
  refine hbind hc.wf (vecM_spec (B := fun i v c' => Hol H (info p Q k).mod (a.get i) v c')
    (R := fun _ v w => v.Small (info p Q k).mod w) hc.wf (fun _ _ _ _ e g => g.ext e) ?_) ?_
  · intro i c1 e1
    rw [get_map']
    exact newFrom_spec h.par (hc.ext e1) fun _ => ZMod.val_natCast_of_lt (hl i)
  · intro s c1 e1 hs
    exact Spec.pure e1.wf ⟨hs, rfl⟩ fun _ _ _ q => q

/-- **C85, `create_rescue_state_variable`**: the state is stored -/
theorem C85_create_honest (h : Params (info p Q k) Q k) (hc : Ready k c) {pi : List (ZMod p)} (hs : checkSat c pi = .ok ())
    (a : Vec (ZMod Q)) :
    ∃ S c', createStateNN a c = .ok (S, c') ∧ checkSat c' pi = .ok () ∧ Ready k c' ∧ StoresS (info p Q k) c' S a := by
  have hs' := (checkSat_ok hc.1 pi).1 hs
  have sp := createState_spec h (hc.ctx hs') a
  obtain ⟨S, c', hrun, hsat⟩ := sp.complete trivial pi hs'
  obtain ⟨e, b, -⟩ := sp.sound _ _ hrun
  exact ⟨S, c', hrun, (checkSat_ok e.wf pi).2 hsat, Ready.of_ext hc e, storesS_of_holN b⟩

/-- **C85, `create_rescue_state_variable`**: in every satisfying assignment the limbs are in range -/
theorem C85_create_sound (h : Params (info p Q k) Q k) (hc : Ready k c) {a : Vec (ZMod Q)} {S : NState p} {c' : Circ p}
    (hrun : createStateNN a c = .ok (S, c')) {pi : List (ZMod p)} {w : ℕ → ZMod p} (hw : Sat c' pi w) :
    VarS (info p Q k) c' S ∧ SmallS (info p Q k) w S.s := by
  obtain ⟨e, b, r⟩ := (createState_spec h hc.ctxF a).sound _ _ hrun
  exact ⟨⟨fun i => ⟨(b.s i).1, (b.s i).2.1⟩, b.mod⟩, r pi w hw⟩

/-! ## The permutation -/

variable {K : Consts} {f : Vec (ZMod Q) → Vec (ZMod Q)}

/-- **C85, `rescue_permutation` with honest values**: the circuit is built and satisfied and stores the native permutation -/
theorem C85_permutation_honest (h : Params I Q k) (hA : K.A = 11) (hf : HashOk K f) (hc : Ready k c) {pi : List (ZMod p)}
    (hs : checkSat c pi = .ok ()) {S : NState p} {a : Vec (ZMod Q)} (hS : StoresS I c S a) :
    ∃ T c', permNN Q K S c = .ok (T, c') ∧ checkSat c' pi = .ok () ∧ Ready k c' ∧ StoresS I c' T (f a) := by
  have hs' := (checkSat_ok hc.1 pi).1 hs
  have sp := permNN_spec h.par (hc.ctx hs') hA hf hS.holN
  obtain ⟨T, c', hrun, hsat⟩ := sp.complete trivial pi hs'
  obtain ⟨e, b, -⟩ := sp.sound _ _ hrun
  exact ⟨T, c', hrun, (checkSat_ok e.wf pi).2 hsat, Ready.of_ext hc e, storesS_of_holN b⟩

/-- **C85, `rescue_permutation`, any assignment**: if the limbs of the input are in range, so are those of the result, and it stands
for the native permutation of the input -/
theorem C85_permutation_sound (h : Params I Q k) (hA : K.A = 11) (hf : HashOk K f) (hc : Ready k c) {S T : NState p} {c' : Circ p}
    (hS : VarS I c S) (hrun : permNN Q K S c = .ok (T, c')) {pi : List (ZMod p)} {w : ℕ → ZMod p} (hw : Sat c' pi w)
    (hin : SmallS I w S.s) : SmallS I w T.s ∧ valueS Q I w T = f (valueS Q I w S) := by
  obtain ⟨e, -, r⟩ := (permNN_spec h.par hc.ctxF hA hf (hS.holN (valueS Q I w S))).sound _ _ hrun
  exact ewS_value (r pi w hw 0 1 _ (by omega) (by omega) (ewS_of_small hin).un)

/-! ## The sponges -/

/-- **C85, `rescue_sponge_no_padding` with honest values** -/
theorem C85_sponge_honest (h : Params I Q k) (hA : K.A = 11) (hf : HashOk K f) (hc : Ready k c) {pi : List (ZMod p)}
    (hs : checkSat c pi = .ok ()) {data : List (FpElemVar p)} {as : List (ZMod Q)} (hd : List.Forall₂ (Stores I c) data as)
    (hne : data ≠ []) (hl : 3 ∣ data.length) (num : ℕ) :
    ∃ R c' r, spongeNN Q K data num c = .ok (R, c') ∧ checkSat c' pi = .ok () ∧ Ready k c' ∧
      Rescue.spongeNoPadding f as num = .ok r ∧ List.Forall₂ (Stores I c') R r := by
  have hs' := (checkSat_ok hc.1 pi).1 hs
  have sp := spongeNN_spec h.par (hc.ctx hs') hA hf (hol_list hd) num fun _ => ⟨hne, Nat.mod_eq_zero_of_dvd hl⟩
  obtain ⟨R, c', hrun, hsat⟩ := sp.complete trivial pi hs'
  obtain ⟨e, ⟨r, b1, b2⟩, -⟩ := sp.sound _ _ hrun
  exact ⟨R, c', r, hrun, (checkSat_ok e.wf pi).2 hsat, Ready.of_ext hc e, b1, stores_list b2⟩

/-- **C85, `rescue_sponge_no_padding`, any assignment** -/
theorem C85_sponge_sound (h : Params I Q k) (hA : K.A = 11) (hf : HashOk K f) (hc : Ready k c) {data R : List (FpElemVar p)}
    {num : ℕ} {c' : Circ p} (hd : ∀ x ∈ data, Var I c x) (hrun : spongeNN Q K data num c = .ok (R, c'))
    {pi : List (ZMod p)} {w : ℕ → ZMod p} (hw : Sat c' pi w) (hin : ∀ x ∈ data, Small I w x) :
    (∀ x ∈ R, Small I w x) ∧ Rescue.spongeNoPadding f (data.map (value Q I w)) num = .ok (R.map (value Q I w)) := by
  obtain ⟨e, -, r⟩ := (spongeNN_spec h.par hc.ctxF hA hf (var_list hd) num False.elim).sound _ _ hrun
  obtain ⟨v, g1, g2⟩ := r pi w hw _ (ew_list hin)
  obtain ⟨g3, g4⟩ := ew_list_value g2
  exact ⟨g3, by rw [g4, g1]⟩

/-- **C85, `rescue_sponge_with_padding` with honest values** -/
theorem C85_sponge_padding_honest (h : Params I Q k) (hA : K.A = 11) (hf : HashOk K f) (hc : Ready k c) {pi : List (ZMod p)}
    (hs : checkSat c pi = .ok ()) {data : List (FpElemVar p)} {as : List (ZMod Q)} (hd : List.Forall₂ (Stores I c) data as)
    (hne : data ≠ []) (num : ℕ) :
    ∃ R c' r, spongePadNN Q K data num c = .ok (R, c') ∧ checkSat c' pi = .ok () ∧ Ready k c' ∧
      Rescue.spongeWithBitPadding f as num = .ok r ∧ List.Forall₂ (Stores I c') R r := by
  have hs' := (checkSat_ok hc.1 pi).1 hs
  have sp := spongePadNN_spec h.par (hc.ctx hs') hA hf (hol_list hd) num fun _ => hne
  obtain ⟨R, c', hrun, hsat⟩ := sp.complete trivial pi hs'
  obtain ⟨e, ⟨r, b1, b2⟩, -⟩ := sp.sound _ _ hrun
  exact ⟨R, c', r, hrun, (checkSat_ok e.wf pi).2 hsat, Ready.of_ext hc e, b1, stores_list b2⟩

/-- **C85, `rescue_sponge_with_padding`, any assignment** -/
theorem C85_sponge_padding_sound (h : Params I Q k) (hA : K.A = 11) (hf : HashOk K f) (hc : Ready k c)
    {data R : List (FpElemVar p)} {num : ℕ} {c' : Circ p} (hd : ∀ x ∈ data, Var I c x)
    (hrun : spongePadNN Q K data num c = .ok (R, c')) {pi : List (ZMod p)} {w : ℕ → ZMod p} (hw : Sat c' pi w)
    (hin : ∀ x ∈ data, Small I w x) :
    (∀ x ∈ R, Small I w x) ∧ Rescue.spongeWithBitPadding f (data.map (value Q I w)) num = .ok (R.map (value Q I w)) := by
  obtain ⟨e, -, r⟩ := (spongePadNN_spec h.par hc.ctxF hA hf (var_list hd) num False.elim).sound _ _ hrun
  obtain ⟨v, g1, g2⟩ := r pi w hw _ (ew_list hin)
  obtain ⟨g3, g4⟩ := ew_list_value g2
  exact ⟨g3, by rw [g4, g1]⟩

/-- **C85, `rescue_full_state_keyed_sponge_no_padding` with honest values** -/
theorem C85_keyed_honest (h : Params I Q k) (hA : K.A = 11) (hf : HashOk K f) (hc : Ready k c) {pi : List (ZMod p)}
    (hs : checkSat c pi = .ok ()) {key : FpElemVar p} {b : ZMod Q} (hk : Stores I c key b) {data : List (FpElemVar p)}
    {as : List (ZMod Q)} (hd : List.Forall₂ (Stores I c) data as) (hne : data ≠ []) (hl : 4 ∣ data.length) :
    ∃ v c' r, keyedNN Q K key data c = .ok (v, c') ∧ checkSat c' pi = .ok () ∧ Ready k c' ∧
      Rescue.fsksNoPadding f b as 1 = .ok [r] ∧ Stores I c' v r := by
  have hs' := (checkSat_ok hc.1 pi).1 hs
  have sp := keyedNN_spec h.par (hc.ctx hs') hA hf hk.hol (hol_list hd) fun _ => ⟨hne, Nat.mod_eq_zero_of_dvd hl⟩
  obtain ⟨v, c', hrun, hsat⟩ := sp.complete trivial pi hs'
  obtain ⟨e, ⟨r, b1, b2⟩, -⟩ := sp.sound _ _ hrun
  exact ⟨v, c', r, hrun, (checkSat_ok e.wf pi).2 hsat, Ready.of_ext hc e, b1, stores_of_hol b2⟩

/-- **C85, `rescue_full_state_keyed_sponge_no_padding`, any assignment** -/
theorem C85_keyed_sound (h : Params I Q k) (hA : K.A = 11) (hf : HashOk K f) (hc : Ready k c) {key v : FpElemVar p}
    {data : List (FpElemVar p)} {c' : Circ p} (hk : Var I c key) (hd : ∀ x ∈ data, Var I c x)
    (hrun : keyedNN Q K key data c = .ok (v, c')) {pi : List (ZMod p)} {w : ℕ → ZMod p} (hw : Sat c' pi w)
    (hk' : Small I w key) (hin : ∀ x ∈ data, Small I w x) :
    Small I w v ∧ Rescue.fsksNoPadding f (value Q I w key) (data.map (value Q I w)) 1 = .ok [value Q I w v] := by
  obtain ⟨e, -, r⟩ := (keyedNN_spec h.par hc.ctxF hA hf (hk.hol (0 : ZMod Q)) (var_list hd) False.elim).sound _ _ hrun
  obtain ⟨u, g1, g2⟩ := r pi w hw _ _ (ew_of_small hk') (ew_list hin)
  obtain ⟨g3, g4⟩ := ew_value g2
  exact ⟨g3, by rw [g4, g1]⟩

/-- **C85, `rescue_full_state_keyed_sponge_with_zero_padding` with honest values** -/
theorem C85_keyed_padding_honest (h : Params I Q k) (hA : K.A = 11) (hf : HashOk K f) (hc : Ready k c) {pi : List (ZMod p)}
    (hs : checkSat c pi = .ok ()) {key : FpElemVar p} {b : ZMod Q} (hk : Stores I c key b) {data : List (FpElemVar p)}
    {as : List (ZMod Q)} (hd : List.Forall₂ (Stores I c) data as) (hne : data ≠ []) :
    ∃ v c' r, keyedPadNN Q K key data c = .ok (v, c') ∧ checkSat c' pi = .ok () ∧ Ready k c' ∧
      Rescue.fsksZeroPadding f b as 1 = .ok [r] ∧ Stores I c' v r := by
  have hs' := (checkSat_ok hc.1 pi).1 hs
  have sp := keyedPadNN_spec h.par (hc.ctx hs') hA hf hk.hol (hol_list hd) fun _ => hne
  obtain ⟨v, c', hrun, hsat⟩ := sp.complete trivial pi hs'
  obtain ⟨e, ⟨r, b1, b2⟩, -⟩ := sp.sound _ _ hrun
  exact ⟨v, c', r, hrun, (checkSat_ok e.wf pi).2 hsat, Ready.of_ext hc e, b1, stores_of_hol b2⟩

/-- **C85, `rescue_full_state_keyed_sponge_with_zero_padding`, any assignment** -/
theorem C85_keyed_padding_sound (h : Params I Q k) (hA : K.A = 11) (hf : HashOk K f) (hc : Ready k c) {key v : FpElemVar p}
    {data : List (FpElemVar p)} {c' : Circ p} (hk : Var I c key) (hd : ∀ x ∈ data, Var I c x)
    (hrun : keyedPadNN Q K key data c = .ok (v, c')) {pi : List (ZMod p)} {w : ℕ → ZMod p} (hw : Sat c' pi w)
    (hk' : Small I w key) (hin : ∀ x ∈ data, Small I w x) :
    Small I w v ∧ Rescue.fsksZeroPadding f (value Q I w key) (data.map (value Q I w)) 1 = .ok [value Q I w v] := by
  obtain ⟨e, -, r⟩ := (keyedPadNN_spec h.par hc.ctxF hA hf (hk.hol (0 : ZMod Q)) (var_list hd) False.elim).sound _ _ hrun
  obtain ⟨u, g1, g2⟩ := r pi w hw _ _ (ew_of_small hk') (ew_list hin)
  obtain ⟨g3, g4⟩ := ew_value g2
  exact ⟨g3, by rw [g4, g1]⟩

/-! ## The cipher -/

/-- **C85, `prp` with honest values**: the circuit is built and satisfied and stores the native cipher -/
theorem C85_prp_honest (h : Params I Q k) (hA : K.A = 11) (hg : Rescue.Good Q K)
    (hj : K.keyInjection.length = 2 * Rescue.rounds) (hc : Ready k c) {pi : List (ZMod p)} (hs : checkSat c pi = .ok ())
    {key S : NState p} {b a : Vec (ZMod Q)} (hK : StoresS I c key b) (hS : StoresS I c S a) :
    ∃ R c' v, prpNN Q K key S c = .ok (R, c') ∧ checkSat c' pi = .ok () ∧ Ready k c' ∧
      Rescue.prp K (PRP.default K) b a = some v ∧ StoresS I c' R.1 v := by
  have hs' := (checkSat_ok hc.1 pi).1 hs
  have sp := prpNN_spec h.par (hc.ctx hs') hA hg hj hK.holN hS.holN
  obtain ⟨R, c', hrun, hsat⟩ := sp.complete trivial pi hs'
  obtain ⟨e, ⟨v, b1, b2⟩, -⟩ := sp.sound _ _ hrun
  exact ⟨R, c', v, hrun, (checkSat_ok e.wf pi).2 hsat, Ready.of_ext hc e, b1, storesS_of_holN b2⟩

/-- **C85, `prp`, partial**: the result stands for the native cipher in every satisfying assignment in which, besides the inputs, the
result and the states entering the odd rounds (`R.2`) have limbs in range. The code does not check the range of these sums; without
the condition the claim fails (`C85_prp_counterexample`). -/
theorem C85_prp_sound_partial (h : Params I Q k) (hA : K.A = 11) (hg : Rescue.Good Q K)
    (hj : K.keyInjection.length = 2 * Rescue.rounds) (hc : Ready k c) {key S : NState p}
    {R : NState p × List (Vec (FpElemVar p))} {c' : Circ p} (hK : VarS I c key) (hS : VarS I c S)
    (hrun : prpNN Q K key S c = .ok (R, c')) {pi : List (ZMod p)} {w : ℕ → ZMod p} (hw : Sat c' pi w)
    (hk : SmallS I w key.s) (hin : SmallS I w S.s) (hmid : ∀ s ∈ R.2, SmallS I w s) (hout : SmallS I w R.1.s) :
    Rescue.prp K (PRP.default K) (valueS Q I w key) (valueS Q I w S) = some (valueS Q I w R.1) := by
  obtain ⟨e, -, r⟩ := (prpNN_spec h.par hc.ctxF hA hg hj (hK.holN (valueS Q I w key)) (hS.holN (valueS Q I w S))).sound _ _ hrun
  obtain ⟨v, g1, g2⟩ := r pi w hw _ _ (ewS_of_small hk) (ewS_of_small hin) hmid
  have g3 : EwS I w v R.1 := fun i => (g2 i).ew h.par (by omega) (by omega) (hout i)
  rw [g1, (ewS_value g3).2]

/-! ## Errors -/

/-- **C85, other exponents**: with `T::A ≠ 11` the permutation is refused -/
theorem C85_other_exponent (hA : K.A ≠ 11) (hkeys : K.permRoundKeys.length = 2 * Rescue.rounds + 1) (S : NState p) : ∃ e, permNN Q K S c = .error e := by
  rcases hr : permNN Q K S c with e | ⟨T, c'⟩
  · exact ⟨e, rfl⟩
  exfalso
  unfold permNN permWithKeysNN at hr
  have hlen : (Rescue.Permutation.default K : Rescue.Permutation (ZMod Q)).roundKeys.length = 2 * Rescue.rounds + 1 := by
    simpa [Rescue.Permutation.default] using hkeys
  rw [if_neg (by simpa using hlen)] at hr
  generalize hks : (Rescue.Permutation.default K : Rescue.Permutation (ZMod Q)).roundKeys = keys at hr hlen
  match keys with
  | [] => simp at hlen
  | [_] => simp [Rescue.rounds] at hlen
  | k0 :: k1 :: ks =>
    simp only [constKeysNN] at hr
    obtain ⟨S1, c1, -, hr⟩ := bind_ok hr
    obtain ⟨S2, c2, hr, -⟩ := bind_ok hr
    unfold roundNN at hr
    rw [if_pos (by decide)] at hr
    obtain ⟨S3, c3, hr, -⟩ := bind_ok hr
    unfold powAlphaInvStateNN at hr
    obtain ⟨u, c4, -, hr⟩ := bind_ok hr
    obtain ⟨s, c5, hr, -⟩ := bind_ok hr
    unfold vecM at hr
    obtain ⟨x, c6, hr, -⟩ := bind_ok hr
    unfold powAlphaInvNN at hr
    obtain ⟨u, c7, -, hr⟩ := bind_ok hr
    rw [if_neg hA] at hr
    cases hr

/-- **C85, data the sponges refuse**: none, or a number that is not a multiple of the block length -/
theorem C85_refused (K : Consts) (key : FpElemVar p) (data : List (FpElemVar p)) (num : ℕ) :
    (data = [] ∨ ¬ 3 ∣ data.length → spongeNN Q K data num c = .error .parameter) ∧
    (data = [] ∨ ¬ 4 ∣ data.length → keyedNN Q K key data c = .error .parameter) ∧
    (data = [] → spongePadNN Q K data num c = .error .parameter ∧ keyedPadNN Q K key data c = .error .parameter) := by
  refine ⟨fun h => ?_, fun h => ?_, fun h => by subst h; exact ⟨rfl, rfl⟩⟩
  · match data with
    | [] | [_] | [_, _] => rfl
    | a :: b :: d :: rest =>
      unfold spongeNN
      have : rest.length % 3 ≠ 0 := by
        rcases h with h | h
        · cases h
        · simp only [List.length_cons] at h
          omega
      simp only [if_pos this]
      rfl
  · match data with
    | [] => rfl
    | a :: rest =>
      unfold keyedNN
      have : (a :: rest).length % 4 ≠ 0 := by
        rcases h with h | h
        · cases h
        · omega
      simp only [if_pos this]
      rfl

/-! ## The shape of the circuit -/

/-- **C85, the shape**: circuits that differ only in the values stored lead to the same gates, wires and result variables -/
theorem C85_shape {d : Circ p} (hsame : Same c d) (K : Consts) :
    (∀ S T T' c' d', permNN Q K S c = .ok (T, c') → permNN Q K S d = .ok (T', d') → T = T' ∧ Same c' d') ∧
    (∀ data num R R' c' d', spongeNN Q K data num c = .ok (R, c') → spongeNN Q K data num d = .ok (R', d') → R = R' ∧ Same c' d') ∧
    (∀ key data v v' c' d', keyedNN Q K key data c = .ok (v, c') → keyedNN Q K key data d = .ok (v', d') → v = v' ∧ Same c' d') ∧
    (∀ key S R R' c' d', prpNN Q K key S c = .ok (R, c') → prpNN Q K key S d = .ok (R', d') → R = R' ∧ Same c' d') :=
  ⟨fun S _ _ _ _ h1 h2 => perm_rel K S c d hsame _ _ _ _ h1 h2,
    fun data num _ _ _ _ h1 h2 => sponge_rel K data num c d hsame _ _ _ _ h1 h2,
    fun key data _ _ _ _ h1 h2 => keyed_rel K key data c d hsame _ _ _ _ h1 h2,
    fun key S _ _ _ _ h1 h2 => prp_rel K key S c d hsame _ _ _ _ h1 h2⟩

/-! ## The cipher with other values for an unchecked sum -/

theorem forged (h : Params I Q k) (hA : K.A = 11) (hg : Rescue.Good Q K) (hj : K.keyInjection.length = 2 * Rescue.rounds)
    (hc : Ready k c) {pi : List (ZMod p)} (hs : checkSat c pi = .ok ()) {key S : NState p} {b a : Vec (ZMod Q)}
    (hK : StoresS I c key b) (hS : StoresS I c S a) {j1 j2 : Vec (ZMod Q)} {js : List (Vec (ZMod Q))}
    (hjs : (PRP.default K : PRP (ZMod Q)).keyInjection = j1 :: j2 :: js) {z r0 r1 : ZMod p} {hh : MulHints p}
    {k0 k1 t : Vec (ZMod Q)}
    (hk0 : k0 = Rescue.addVec b (PRP.default K).initVec)
    (hk1 : k1 = Rescue.linear (Rescue.powVec k0 K.aInv) (PRP.default K).mds j1)
    (ht : t = Rescue.linear (Rescue.powVec (Rescue.addVec a k0) K.aInv) (PRP.default K).mds Rescue.zeroVec)
    (hat : SqAttack I Q k t.a k1.a z r0 r1 hh) (hzr : (zeroHints I.mod).Ranges I.mod.m k) (hne : t.a + k1.a ≠ 0) :
    ∃ R c' v w, prpNN Q K key S c = .ok (R, c') ∧ Rescue.prp K (PRP.default K) b a = some v ∧
      Sat c' pi w ∧ (∀ i < c.numVars, w i = c.val i) ∧ SmallS I w R.1.s ∧ valueS Q I w R.1 ≠ v := by
  have hs' := (checkSat_ok hc.1 pi).1 hs
  obtain ⟨R, c', v, hrun, -, -, hv, -⟩ := C85_prp_honest h hA hg hj hc hs hK hS
  have tr : ∀ {S : NState p} {z : Vec (ZMod Q)}, StoresS I c S z → HolN True I z S (c.assign c.val) := by
    intro S z hx
    refine ⟨fun i => ⟨(hx.1 i).1.1, (hx.1 i).1.2, fun _ => ?_⟩, hx.2⟩
    unfold St
    rw [assign_val c c.val (hx.1 i).1.1.1, assign_val c c.val (hx.1 i).1.1.2]
    exact (hx.1 i).2
  have hctx : Ctx True k (c.assign c.val) :=
    ⟨assign_wf hc.1 c.val, hc.2.1, hc.2.2, fun _ => ⟨by rw [assign_val c c.val hc.1.z]; exact Sat.zero hc.1 hs',
      by rw [assign_val c c.val hc.1.o]; exact Sat.one hc.1 hs'⟩⟩
  have sp := prpAdv_spec h.par hctx hA hg (tr hK) (tr hS) hjs hk0 hk1 ht (u := Rescue.addVec t k1) rfl hat hzr
  obtain ⟨d', -, hB, -, hag, hsat⟩ := sp.universal'' (prp_rel' K key S _ z r0 r1 hh _) hc.1 trivial hrun hs'
  have hval := stores_value h (storesS_of_holN hB)
  refine ⟨R, c', v, d'.val, hrun, hv, hsat, hag, hval.1, ?_⟩
  rw [hval.2]
  have hk' : (PRP.default K : PRP (ZMod Q)).keyInjection.length = 2 * Rescue.rounds := by
    simpa [PRP.default] using hj
  simp only [Rescue.prp, Rescue.keySchedule, hk', lt_irrefl, if_false] at hv
  rw [List.take_of_length_le (le_of_eq hk'), hjs] at hv
  unfold Rescue.prpWithRoundKeys at hv
  split at hv
  · cases hv
  simp only [Option.some.injEq, Rescue.scheduleLoop, Rescue.roundLoop] at hv
  have x0 : Rescue.expOf K 0 = K.aInv := rfl
  rw [← hv, ← hk0, x0, ← hk1]
  intro heq
  have h1 := Rescue.roundLoop_injective hg _ _ heq
  rw [linear_add] at h1
  have h2 := Rescue.addVec_left_injective _ h1
  have h3 := Rescue.mulVec_injective _ hg.det h2
  have h4 := congrArg Vec.a h3
  have x1 : Rescue.expOf K (0 + 1) = [K.A] := rfl
  rw [x1, hA] at h4
  have h5 : (0 : ZMod Q) = (Rescue.linear (Rescue.powVec (Rescue.addVec a k0) K.aInv) (PRP.default K).mds k1).a ^ 11 := by
    refine h4.trans ?_
    simp [Rescue.powVec, Vec.map, Rescue.limbsVal]
  rw [← linear_add, ← ht] at h5
  exact hne (pow_eq_zero_iff (by norm_num) |>.1 h5.symm)

end

/-! ## BLS12-377: Rescue over the scalar field in a circuit over the base field -/

section
open Rescue (p_fq377 p_ed377 ed377)

instance : Fact (Nat.Prime p_fq377) := ⟨Fields.prime_fq377⟩

theorem ed_mem : (⟨p_ed377, ed377⟩ : Rescue.Instance) ∈ Rescue.shipped := by simp [Rescue.shipped]

/-- with range checks of 8 bits, as in the tests of the code, and of 16 and 21 bits -/
theorem C85_shipped_parameters : (limbBits p_ed377 8 = 128 ∧ Params (info p_fq377 p_ed377 8) p_ed377 8) ∧
    (limbBits p_ed377 16 = 128 ∧ Params (info p_fq377 p_ed377 16) p_ed377 16) ∧
    (limbBits p_ed377 21 = 147 ∧ Params (info p_fq377 p_ed377 21) p_ed377 21) := by
  have e1 : limbBits p_ed377 8 = 128 := by decide +kernel
  have e2 : limbBits p_ed377 16 = 128 := by decide +kernel
  have e3 : limbBits p_ed377 21 = 147 := by decide +kernel
  exact ⟨⟨e1, C85_parameters (by decide) (by decide) (by rw [e1]; decide +kernel)⟩,
    ⟨e2, C85_parameters (by decide) (by decide) (by rw [e2]; decide +kernel)⟩,
    ⟨e3, C85_parameters (by decide) (by decide) (by rw [e3]; decide +kernel)⟩⟩

/-! ### Examples -/

theorem new_ready {p k : ℕ} [hp : Fact p.Prime] (k0 : 0 < k) (k1 : k < 32) (k2 : 2 ^ k < p) :
    Ready k (Circ.new p (some k)) ∧ checkSat (Circ.new p (some k)) [] = .ok () := by
  have hr : RangeOK (Circ.new p (some k)) := by
    intro j hj
    simp only [Circ.new, Option.some.injEq] at hj
    subst hj
    exact ⟨k0, k1, k2⟩
  have hw := wf_new (p := p) (some k)
  exact ⟨⟨hw, hr, rfl⟩, (checkSat_ok hw []).2 (Verif.Props.Emulated.sat_new (p := p) (some k))⟩

/-- states of a new circuit -/
theorem states {p Q k : ℕ} [hp : Fact p.Prime] [hQ : Fact Q.Prime] (h : Params (info p Q k) Q k) (k1 : k < 32) (k2 : 2 ^ k < p)
    (b a : Vec (ZMod Q)) : ∃ key S c1 c,
    createStateNN b (Circ.new p (some k)) = .ok (key, c1) ∧ createStateNN a c1 = .ok (S, c) ∧ Ready k c ∧ checkSat c [] = .ok () ∧
      StoresS (info p Q k) c key b ∧ StoresS (info p Q k) c S a := by
  obtain ⟨hR, hs⟩ := new_ready (p := p) (show 0 < k by have := h.mul.two; omega) k1 k2
  obtain ⟨key, c1, g1, s1, R1, K1⟩ := C85_create_honest h hR hs b
  obtain ⟨S, c, g2, s2, R2, S2⟩ := C85_create_honest h R1 s1 a
  have e := (createState_spec h (H := False) R1.ctxF a).sound _ _ g2
  refine ⟨key, S, c1, c, g1, g2, R2, s2, ?_, S2⟩
  exact storesS_of_holN ((StoresS.holN K1).ext e.1)

/-- the permutation of the shipped constants on a new circuit with range checks of 8 bits -/
example (a : Vec (ZMod p_ed377)) : ∃ f : Vec (ZMod p_ed377) → Vec (ZMod p_ed377), HashOk ed377 f ∧ ∃ S T c1 c,
    createStateNN a (Circ.new p_fq377 (some 8)) = .ok (S, c1) ∧ permNN p_ed377 ed377 S c1 = .ok (T, c) ∧
      checkSat c [] = .ok () ∧ StoresS (info p_fq377 p_ed377 8) c T (f a) := by
  obtain ⟨f, hf⟩ := SchnorrCircuit.perm_exists ⟨p_ed377, ed377⟩ ed_mem
  obtain ⟨hR, hs⟩ := new_ready (p := p_fq377) (k := 8) (by norm_num) (by norm_num) (by decide +kernel)
  obtain ⟨S, c1, g1, s1, R1, S1⟩ := C85_create_honest C85_shipped_parameters.1.2 hR hs a
  obtain ⟨T, c, g2, s2, -, T2⟩ := C85_permutation_honest C85_shipped_parameters.1.2 rfl hf R1 s1 S1
  exact ⟨f, hf, S, T, c1, c, g1, g2, s2, T2⟩

/-- both sponges of the shipped constants -/
example (a : Vec (ZMod p_ed377)) : ∃ f : Vec (ZMod p_ed377) → Vec (ZMod p_ed377), HashOk ed377 f ∧ ∃ key S c1 c,
    createStateNN a (Circ.new p_fq377 (some 16)) = .ok (key, c1) ∧ createStateNN a c1 = .ok (S, c) ∧
    (∃ R c', spongeNN p_ed377 ed377 [S.s.a, S.s.b, S.s.c] 2 c = .ok (R, c') ∧ checkSat c' [] = .ok ()) ∧
    (∃ R c', spongePadNN p_ed377 ed377 [S.s.a, S.s.b] 2 c = .ok (R, c') ∧ checkSat c' [] = .ok ()) ∧
    (∃ r c', keyedNN p_ed377 ed377 key.s.a [S.s.a, S.s.b, S.s.c, S.s.d] c = .ok (r, c') ∧ checkSat c' [] = .ok ()) ∧
    (∃ r c', keyedPadNN p_ed377 ed377 key.s.a [S.s.a, S.s.b, S.s.c] c = .ok (r, c') ∧ checkSat c' [] = .ok ()) := by
  obtain ⟨f, hf⟩ := SchnorrCircuit.perm_exists ⟨p_ed377, ed377⟩ ed_mem
  obtain ⟨key, S, c1, c, g1, g2, hR, hs, hK, hS⟩ := states C85_shipped_parameters.2.1.2 (by norm_num) (by decide +kernel) a a
  have P := C85_shipped_parameters.2.1.2
  obtain ⟨R1, d1, -, x1, y1, -⟩ := C85_sponge_honest P rfl hf hR hs (.cons (hS.1 0) (.cons (hS.1 1) (.cons (hS.1 2) .nil)))
    (by simp) ⟨1, rfl⟩ 2
  obtain ⟨R2, d2, -, x2, y2, -⟩ := C85_sponge_padding_honest P rfl hf hR hs (.cons (hS.1 0) (.cons (hS.1 1) .nil)) (by simp) 2
  obtain ⟨R3, d3, -, x3, y3, -⟩ := C85_keyed_honest P rfl hf hR hs (hK.1 0)
    (.cons (hS.1 0) (.cons (hS.1 1) (.cons (hS.1 2) (.cons (hS.1 3) .nil)))) (by simp) ⟨1, rfl⟩
  obtain ⟨R4, d4, -, x4, y4, -⟩ := C85_keyed_padding_honest P rfl hf hR hs (hK.1 0)
    (.cons (hS.1 0) (.cons (hS.1 1) (.cons (hS.1 2) .nil))) (by simp)
  exact ⟨f, hf, key, S, c1, c, g1, g2, ⟨R1, d1, x1, y1⟩, ⟨R2, d2, x2, y2⟩, ⟨R3, d3, x3, y3⟩, ⟨R4, d4, x4, y4⟩⟩

theorem ed_inj : ed377.keyInjection.length = 2 * Rescue.rounds := (Circuit.shipped_keys _ ed_mem).2

/-- the cipher of the shipped constants -/
example (b a : Vec (ZMod p_ed377)) : ∃ key S c1 c R c' v, createStateNN b (Circ.new p_fq377 (some 16)) = .ok (key, c1) ∧
    createStateNN a c1 = .ok (S, c) ∧ prpNN p_ed377 ed377 key S c = .ok (R, c') ∧ checkSat c' [] = .ok () ∧
    Rescue.prp ed377 (PRP.default ed377) b a = some v ∧ StoresS (info p_fq377 p_ed377 16) c' R.1 v := by
  obtain ⟨key, S, c1, c, g1, g2, hR, hs, hK, hS⟩ := states C85_shipped_parameters.2.1.2 (by norm_num) (by decide +kernel) b a
  obtain ⟨R, c', v, g3, s3, -, h1, h2⟩ := C85_prp_honest C85_shipped_parameters.2.1.2 rfl (Rescue.C38_shipped_good _ ed_mem) ed_inj
    hR hs hK hS
  exact ⟨key, S, c1, c, R, c', v, g1, g2, g3, s3, h1, h2⟩

/-- the key of the counterexample: the initial vector with the sign changed -/
def cKey : Vec (ZMod p_ed377) :=
  ⟨1249295488665861824996101134662547283757911504676539103352697702394665809139,
    8286892826370500339063023807554734023221250511776670055184475453750474623627,
    75487380714191365688722716571725003233159040867528110963991997863077791742,
    6251316882582249543139174111642256405216292717086318688655832375392092025138⟩

/-- root of the input -/
def cRoot : ZMod p_ed377 := 4522127682819844208006190669864970850483357490027571000707272427162198360763

/-- the input of the counterexample -/
def cIn : Vec (ZMod p_ed377) :=
  ⟨6051194329011923614185366458360666877245041761168286209688363895775905737572, 0, 0, 0⟩

/-- first entry of the state of round 1 before the key is added -/
def cA : ZMod p_ed377 := 4144702000687948153056466906646532776066955478463306132354482557094834501937

/-- the limbs claimed for the sum -/
def c0 : ZMod p_fq377 := 1137243215000575622250799064518045986405658056874545832299
/-- second limb -/
def c1 : ZMod p_fq377 :=
  258664426012969094010652733694893533536393512754914660539884262666720468348332567536289715186302495142990813531026
/-- the quotient claimed for the sum -/
def cZ : ZMod p_fq377 := 174409
/-- the hints for the square of the sum -/
def cH : MulHints p_fq377 :=
  ⟨84868816046185435902088277142062833565516468, 1439781730182595166464066213385412885462666, 0, 0,
    308368925113914929668216990406228182566693727447156, 105245879057235654225803776943792484966896752696805⟩

/-- `info p_fq377 p_ed377 21`, evaluated -/
def I147 : Info p_fq377 :=
  ⟨147, some (2 ^ 147), (p_ed377 : ℕ), ⟨((p_ed377 % 2 ^ 147 : ℕ) : ZMod p_fq377), ((p_ed377 / 2 ^ 147 : ℕ) : ZMod p_fq377), 147, 2 ^ 147⟩⟩

theorem info_21 : info p_fq377 p_ed377 21 = I147 := by
  unfold info I147
  rw [C85_shipped_parameters.2.2.1]

theorem c_key : Rescue.addVec cKey (PRP.default ed377 : PRP (ZMod p_ed377)).initVec = Rescue.zeroVec := by
  decide +kernel

theorem c_root : cIn.a = cRoot ^ 11 := by decide +kernel

theorem c_mds : (Rescue.linear ⟨cRoot, 0, 0, 0⟩ (PRP.default ed377 : PRP (ZMod p_ed377)).mds Rescue.zeroVec).a = cA := by
  decide +kernel

/-- the first key that is injected -/
def cJ : ZMod p_ed377 := 2189855727801784336954973762606898364673887847449281858135933771318397833603

theorem c_attack : SqAttack I147 p_ed377 21 cA cJ cZ c0 c1 cH :=
  ⟨by decide +kernel, by decide +kernel, by constructor <;> decide +kernel, by constructor <;> decide +kernel, rfl, rfl⟩

/-- **C85, the cipher is not sound**: with the shipped constants, limbs as the code chooses them and a range check of 21 bits, a
satisfying assignment has the key and the input as created, an output with limbs in range, and the output is not the cipher of the
input: the sum entering round 1 is given limbs whose square is accepted as zero. -/
theorem C85_prp_counterexample : ∃ key S k1 c R c' v w,
    createStateNN cKey (Circ.new p_fq377 (some 21)) = .ok (key, k1) ∧ createStateNN cIn k1 = .ok (S, c) ∧
    prpNN p_ed377 ed377 key S c = .ok (R, c') ∧ Sat c' [] w ∧
    SmallS (info p_fq377 p_ed377 21) w key.s ∧ valueS p_ed377 (info p_fq377 p_ed377 21) w key = cKey ∧
    SmallS (info p_fq377 p_ed377 21) w S.s ∧ valueS p_ed377 (info p_fq377 p_ed377 21) w S = cIn ∧
    SmallS (info p_fq377 p_ed377 21) w R.1.s ∧
    Rescue.prp ed377 (PRP.default ed377) cKey cIn = some v ∧ valueS p_ed377 (info p_fq377 p_ed377 21) w R.1 ≠ v := by
  have P := C85_shipped_parameters.2.2.2
  have hg := Rescue.C38_shipped_good _ ed_mem
  obtain ⟨key, S, k1, c, g1, g2, hR, hs, hK, hS⟩ := states P (by norm_num) (by decide +kernel) cKey cIn
  obtain ⟨j1, j2, js, hjs, hj1⟩ : ∃ (j1 j2 : Vec (ZMod p_ed377)) (js : List (Vec (ZMod p_ed377))),
      (PRP.default ed377 : PRP (ZMod p_ed377)).keyInjection = j1 :: j2 :: js ∧ j1.a = cJ := by
    refine ⟨_, _, _, rfl, ?_⟩
    decide +kernel
  have hp0 : ∀ x : ZMod p_ed377, (x ^ 11) ^ Rescue.limbsVal ed377.aInv = x := Rescue.pow_mul_eq hg.exps hg.pos
  have h00 : (0 : ZMod p_ed377) ^ Rescue.limbsVal ed377.aInv = 0 := by
    have := hp0 0
    rwa [zero_pow (by norm_num)] at this
  have z1 : Rescue.powVec (Rescue.addVec cKey (PRP.default ed377 : PRP (ZMod p_ed377)).initVec) ed377.aInv = Rescue.zeroVec := by
    rw [c_key]
    simp only [Rescue.powVec, Rescue.zeroVec, Vec.map, h00]
  have z2 : Rescue.powVec (Rescue.addVec cIn (Rescue.addVec cKey (PRP.default ed377 : PRP (ZMod p_ed377)).initVec)) ed377.aInv
      = ⟨cRoot, 0, 0, 0⟩ := by
    rw [c_key]
    have e : Rescue.addVec cIn Rescue.zeroVec = ⟨cRoot ^ 11, 0, 0, 0⟩ := by
      simp only [Rescue.addVec, Rescue.zeroVec, Vec.zipWith, add_zero, ← c_root, cIn]
    rw [e]
    simp only [Rescue.powVec, Vec.map, h00, hp0]
  have a1 : (Rescue.linear (Rescue.powVec (Rescue.addVec cKey (PRP.default ed377 : PRP (ZMod p_ed377)).initVec) ed377.aInv)
      (PRP.default ed377).mds j1).a = cJ := by
    rw [z1, ← hj1]
    simp [Rescue.linear, Rescue.addVec, Rescue.mulVec, Rescue.zeroVec, Vec.zipWith, Vec.map, Rescue.dotProduct]
  have a2 : (Rescue.linear (Rescue.powVec (Rescue.addVec cIn (Rescue.addVec cKey (PRP.default ed377 : PRP (ZMod p_ed377)).initVec))
      ed377.aInv) (PRP.default ed377).mds Rescue.zeroVec).a = cA := by
    rw [z2, c_mds]
  obtain ⟨R, c', v, w, q1, q2, q3, q4, q5, q6⟩ := forged P rfl hg ed_inj hR hs hK hS hjs (z := cZ) (r0 := c0) (r1 := c1) (hh := cH)
    rfl rfl rfl (by rw [a1, a2, info_21]; exact c_attack)
    (by rw [info_21]; constructor <;> decide +kernel) (by rw [a1, a2]; decide +kernel)
  obtain ⟨b1, b2⟩ := stores_value P hK
  obtain ⟨b3, b4⟩ := stores_value P hS
  have ag : ∀ {T : NState p_fq377} {x : Vec (ZMod p_ed377)}, StoresS (info p_fq377 p_ed377 21) c T x → ∀ i,
      w (T.s.get i).v0 = c.val (T.s.get i).v0 ∧ w (T.s.get i).v1 = c.val (T.s.get i).v1 :=
    fun h i => ⟨q4 _ (h.1 i).1.1.1, q4 _ (h.1 i).1.1.2⟩
  have agr : ∀ {T : NState p_fq377} {x : Vec (ZMod p_ed377)}, StoresS (info p_fq377 p_ed377 21) c T x →
      SmallS (info p_fq377 p_ed377 21) w T.s ∧ valueS p_ed377 (info p_fq377 p_ed377 21) w T = x := by
    intro T x h
    obtain ⟨b1, b2⟩ := stores_value P h
    refine ⟨fun i => ?_, ?_⟩
    · have := b1 i
      unfold VerifierCircuit.Small at this ⊢
      rwa [(ag h i).1, (ag h i).2]
    · rw [← b2]
      apply Rescue.Vec.get_injective
      funext i
      unfold valueS
      rw [get_map', get_map']
      unfold value
      rw [(ag h i).1, (ag h i).2]
  exact ⟨key, S, k1, c, R, c', v, w, g1, g2, q1, q3, (agr hK).1, (agr hK).2, (agr hS).1, (agr hS).2, q5, q2, q6⟩

end

end Verif.Props.RescueNonNative
