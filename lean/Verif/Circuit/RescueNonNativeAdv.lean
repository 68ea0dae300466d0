import Verif.Circuit.RescueNonNativeSpec
import Verif.Circuit.VerifierAdv

/-!
# The non-native Rescue gadgets with other witnesses

The gates and wires of the gadgets do not depend on the values (`…_rel`). `prpAdv` builds the circuit of `prp` with other values
for one of the unchecked sums and for the products of its eleventh power.
-/

set_option linter.unusedSectionVars false

namespace Verif.Circuit.RescueNN

open Verif.Circuit Verif.Circuit.VerifierPoly Verif.Circuit.VerifierAgg
open Verif.Rescue (Vec Mat Consts PRP Good)
open Verif.Conv (fieldSwitching)

/-! ## The shape of the circuit does not depend on the values -/

section
variable {p Q : ℕ} [hp : Fact p.Prime] {α β γ : Type}

theorem vecM_rel {f f' : α → Build p β} {v v' : Vec α} (h : ∀ i, Rel (f (v.get i)) (f' (v'.get i))) :
    Rel (vecM f v) (vecM f' v') := by
  unfold vecM
  exact Rel.bind (h 0) fun _ => Rel.bind (h 1) fun _ => Rel.bind (h 2) fun _ => Rel.bind (h 3) fun _ => Rel.pure _

theorem get_zip' (f : α → β → γ) (v : Vec α) (w : Vec β) (i : Fin 4) :
    (Vec.zipWith f v w).get i = f (v.get i) (w.get i) := by
  fin_cases i <;> rfl

theorem wits_rel (s : Vec (FpElemVar p)) {f f' : Vec (ZMod p) → Build p β} (hf : ∀ a b, Rel (f a) (f' b)) :
    Rel (vecM wit s >>= f) (vecM wit s >>= f') := by
  unfold vecM
  simp only [build_bind_assoc, build_pure_bind]
  exact wit_rel _ fun _ _ => wit_rel _ fun _ _ => wit_rel _ fun _ _ => wit_rel _ fun _ _ => hf _ _

theorem switches_rel {s t : ℕ} (x y : Vec (ZMod s)) {f f' : Vec (ZMod t) → Build p β} (hf : ∀ a b, Rel (f a) (f' b)) :
    Rel (vecM (switch t) x >>= f) (vecM (switch t) y >>= f') := by
  unfold vecM
  simp only [build_bind_assoc, build_pure_bind]
  exact switch_rel _ _ fun _ _ => switch_rel _ _ fun _ _ => switch_rel _ _ fun _ _ => switch_rel _ _ fun _ _ => hf _ _

theorem wit_bindL (x : FpElemVar p) {f : ZMod p → Build p β} {m : Build p β} (hf : ∀ a, Rel (f a) m) :
    Rel (wit x >>= f) m := by
  unfold wit
  simp only [build_bind_assoc, build_pure_bind]
  exact Rel.witness_bindL fun a => Rel.witness_bindL fun b => hf _

theorem switch_bindL {s t : ℕ} (x : ZMod s) {f : ZMod t → Build p β} {m : Build p β} (hf : ∀ a, Rel (f a) m) :
    Rel (switch t x >>= f) m := by
  unfold switch
  cases fieldSwitching t x with
  | error e => exact Rel.failL _ _
  | ok v => exact hf v

theorem wits_bindL (s : Vec (FpElemVar p)) {f : Vec (ZMod p) → Build p β} {m : Build p β} (hf : ∀ a, Rel (f a) m) :
    Rel (vecM wit s >>= f) m := by
  unfold vecM
  simp only [build_bind_assoc, build_pure_bind]
  exact wit_bindL _ fun _ => wit_bindL _ fun _ => wit_bindL _ fun _ => wit_bindL _ fun _ => hf _

theorem switches_bindL {s t : ℕ} (x : Vec (ZMod s)) {f : Vec (ZMod t) → Build p β} {m : Build p β} (hf : ∀ a, Rel (f a) m) :
    Rel (vecM (switch t) x >>= f) m := by
  unfold vecM
  simp only [build_bind_assoc, build_pure_bind]
  exact switch_bindL _ fun _ => switch_bindL _ fun _ => switch_bindL _ fun _ => switch_bindL _ fun _ => hf _

theorem elemAt_rel (m : ℕ) (t x : ZMod p) : Rel (elemAt m t x) (elemAt m t x) := Rel.liftE _

theorem constAt_rel (m : ℕ) (t : ZMod p) (x : ZMod Q) : Rel (constAt m t x) (constAt m t x) :=
  switch_refl _ fun _ => elemAt_rel _ _ _

theorem newAt_rel (m : ℕ) (t : ZMod p) (x y : ZMod Q) : Rel (newAt m t x) (newAt m t y) :=
  switch_rel _ _ fun _ _ => newFrom_rel _ _ _ _

theorem checkN_rel (s : Vec (FpElemVar p)) : Rel (checkNState s) (checkNState s) := Rel.checkVars _

theorem power11Gen_rel (x : FpElemVar p) : Rel (power11Gen Q x) (power11Gen Q x) := by
  unfold power11Gen
  exact Rel.bind (Rel.liftE _) fun _ => Rel.bind (modMul_rel _ _ _) fun _ => Rel.bind (modMul_rel _ _ _) fun _ =>
    Rel.bind (modMul_rel _ _ _) fun _ => Rel.bind (modMul_rel _ _ _) fun _ => modMul_rel _ _ _

theorem power11Gate_rel (x y : FpElemVar p) : Rel (power11GateNN Q x y) (power11GateNN Q x y) := by
  unfold power11GateNN
  exact Rel.bind (Rel.checkVars _) fun _ => Rel.guard (Rel.bind (power11Gen_rel _) fun _ =>
    Rel.bind (enforceEqual_rel _ _) fun _ => enforceEqual_rel _ _)

theorem mulConsts_rel (q : FpElem p) (l : List (FpElemVar p × FpElem p)) : Rel (mulConsts q l) (mulConsts q l) := by
  induction l with
  | nil => exact Rel.pure _
  | cons x l ih =>
    unfold mulConsts
    exact Rel.bind (modMulConstant_rel _ _ _) fun _ => Rel.bind ih fun _ => Rel.pure _

theorem linearGen_rel (x : List (FpElemVar p)) (y : List (FpElem p)) (c : FpElem p) :
    Rel (linearGen Q x y c) (linearGen Q x y c) := by
  unfold linearGen
  exact Rel.guard (Rel.guard (Rel.guard (Rel.guard (Rel.bind (Rel.liftE _) fun _ => Rel.bind (mulConsts_rel _ _) fun _ =>
    Rel.bind (modAddVec_rel _ _) fun _ => modAddConstant_rel _ _ _))))

theorem addConstState_rel (S : NState p) (k : Vec (ZMod Q)) : Rel (addConstState S k) (addConstState S k) := by
  unfold addConstState
  refine Rel.bind (checkN_rel _) fun _ => Rel.bind (vecM_rel fun i => ?_) fun _ => Rel.bind (vecM_rel fun i => Rel.liftE _)
    fun _ => Rel.bind (vecM_rel fun i => modAddConstant_rel _ _ _) fun _ => Rel.pure _
  unfold switch
  cases fieldSwitching p (k.get i) with
  | error e => exact Rel.failL _ _
  | ok v => exact Rel.pure _

theorem powAlphaInv_rel (K : Consts) (x : FpElemVar p) : Rel (powAlphaInvNN Q K x) (powAlphaInvNN Q K x) := by
  unfold powAlphaInvNN
  refine Rel.bind (Rel.checkVars _) fun _ => ?_
  by_cases h : K.A = 11
  · rw [if_pos h]
    exact wit_rel _ fun _ _ => switch_rel _ _ fun _ _ => Rel.bind (newAt_rel _ _ _ _) fun _ =>
      Rel.bind (power11Gate_rel _ _) fun _ => Rel.pure _
  · rw [if_neg h]; exact Rel.failL _ _

theorem powAlphaInvState_rel (K : Consts) (S : NState p) : Rel (powAlphaInvStateNN Q K S) (powAlphaInvStateNN Q K S) := by
  unfold powAlphaInvStateNN
  exact Rel.bind (checkN_rel _) fun _ => Rel.bind (vecM_rel fun i => powAlphaInv_rel _ _) fun _ => Rel.pure _

theorem affineRow_rel (s : Vec (FpElemVar p)) (m : ℕ) (t : ZMod p) (x : Vec (ZMod Q) × FpElem p × FpElemVar p) :
    Rel (affineRow s m t x) (affineRow s m t x) := by
  unfold affineRow
  exact Rel.bind (vecM_rel fun i => constAt_rel _ _ _) fun _ => Rel.bind (linearGen_rel _ _ _) fun _ =>
    Rel.bind (enforceEqual_rel _ _) fun _ => enforceEqual_rel _ _

theorem affineNN_rel (S : NState p) (M : Mat (ZMod Q)) (k : Vec (ZMod Q)) : Rel (affineNN S M k) (affineNN S M k) := by
  unfold affineNN
  exact Rel.bind (checkN_rel _) fun _ => wits_rel _ fun _ _ => switches_rel _ _ fun _ _ =>
    Rel.bind (vecM_rel fun i => constAt_rel _ _ _) fun _ => Rel.bind (vecM_rel fun i => newAt_rel _ _ _ _) fun _ =>
    Rel.bind (vecM_rel fun i => affineRow_rel _ _ _ _) fun _ => Rel.pure _

theorem power11Row_rel (A m : ℕ) (t : ZMod p) (x : FpElemVar p) (r r' : ZMod Q) :
    Rel (power11RowNN A m t (x, r)) (power11RowNN A m t (x, r')) := by
  unfold power11RowNN
  exact Rel.bind (newAt_rel _ _ _ _) fun _ => Rel.bind (power11Gate_rel _ _) fun _ => Rel.pure _

theorem nonLinear_rel (K : Consts) (S : NState p) (M : Mat (ZMod Q)) (k : Vec (ZMod Q)) :
    Rel (nonLinearNN K S M k) (nonLinearNN K S M k) := by
  unfold nonLinearNN
  refine Rel.bind (checkN_rel _) fun _ => wits_rel _ fun _ _ => switches_rel _ _ fun r r' => ?_
  by_cases h : K.A = 11
  · rw [if_pos h, if_pos h]
    refine Rel.bind (vecM_rel fun i => ?_) fun y => affineNN_rel ⟨y, S.mod⟩ M k
    rw [get_zip', get_zip']
    exact power11Row_rel _ _ _ _ _ _
  · rw [if_neg h]; exact Rel.failL _ _

theorem addState_rel (S T : NState p) : Rel (addStateNN S T) (addStateNN S T) := by
  unfold addStateNN
  exact Rel.bind (checkN_rel _) fun _ => Rel.bind (checkN_rel _) fun _ => Rel.guard (Rel.bind (vecM_rel fun i =>
    modAdd_rel _ _ _) fun _ => Rel.pure _)

theorem round_rel (K : Consts) (M : Mat (ZMod Q)) (r : ℕ) (S : NState p) (k : Vec (ZMod Q)) :
    Rel (roundNN K M r S k) (roundNN K M r S k) := by
  unfold roundNN
  by_cases h : r % 2 = 0
  · rw [if_pos h]; exact Rel.bind (powAlphaInvState_rel _ _) fun _ => affineNN_rel _ _ _
  · rw [if_neg h]; exact nonLinear_rel _ _ _ _

theorem varKeys_rel (K : Consts) (M : Mat (ZMod Q)) (ks : List (NState p)) : ∀ (r : ℕ) (S : NState p),
    Rel (varKeysNN K M r ks S) (varKeysNN K M r ks S) := by
  induction ks with
  | nil => intro r S; exact Rel.pure _
  | cons k ks ih =>
    intro r S
    unfold varKeysNN
    exact Rel.bind (round_rel _ _ _ _ _) fun _ => Rel.bind (addState_rel _ _) fun _ => Rel.bind (ih _ _) fun _ => Rel.pure _

theorem schedule_rel (K : Consts) (M : Mat (ZMod Q)) (ks : List (Vec (ZMod Q))) : ∀ (r : ℕ) (S : NState p),
    Rel (scheduleNN K M r ks S) (scheduleNN K M r ks S) := by
  induction ks with
  | nil => intro r S; exact Rel.pure _
  | cons k ks ih =>
    intro r S
    unfold scheduleNN
    exact Rel.bind (round_rel _ _ _ _ _) fun _ => Rel.bind (ih _ _) fun _ => Rel.pure _

theorem keySchedule_rel (K : Consts) (M : Mat (ZMod Q)) (key : NState p) (P : PRP (ZMod Q)) :
    Rel (keyScheduleNN K M key P) (keyScheduleNN K M key P) := by
  unfold keyScheduleNN
  exact Rel.bind (addConstState_rel _ _) fun _ => Rel.bind (schedule_rel _ _ _ _ _) fun _ => Rel.pure _

theorem constKeys_rel (K : Consts) (M : Mat (ZMod Q)) (ks : List (Vec (ZMod Q))) : ∀ (r : ℕ) (S : NState p),
    Rel (constKeysNN K M r ks S) (constKeysNN K M r ks S) := by
  induction ks with
  | nil => intro r S; exact Rel.pure _
  | cons k ks ih =>
    intro r S
    unfold constKeysNN
    exact Rel.bind (round_rel _ _ _ _ _) fun _ => ih _ _

theorem perm_rel (K : Consts) (S : NState p) : Rel (permNN Q K S) (permNN Q K S) := by
  unfold permNN permWithKeysNN
  refine Rel.guard ?_
  generalize (Rescue.Permutation.default K : Rescue.Permutation (ZMod Q)).roundKeys = keys
  cases keys with
  | nil => exact Rel.failL _ _
  | cons k ks => exact Rel.bind (addConstState_rel _ _) fun _ => constKeys_rel _ _ _ _ _

theorem prpKeys_rel (K : Consts) (S : NState p) (M : Mat (ZMod Q)) (keys : List (NState p)) :
    Rel (prpWithKeysNN K S M keys) (prpWithKeysNN K S M keys) := by
  unfold prpWithKeysNN
  refine Rel.guard ?_
  cases keys with
  | nil => exact Rel.failL _ _
  | cons k ks => exact Rel.bind (addState_rel _ _) fun _ => varKeys_rel _ _ _ _ _

theorem prp_rel (K : Consts) (key S : NState p) : Rel (prpNN Q K key S) (prpNN Q K key S) :=
  Rel.bind (keySchedule_rel _ _ _ _) fun _ => prpKeys_rel _ _ _ _

theorem absorb_rel (K : Consts) (q : FpElem p) (z : FpElemVar p) : ∀ (n : ℕ) (data : List (FpElemVar p)), data.length ≤ n →
    ∀ S : NState p, Rel (absorbNN Q K q z data S) (absorbNN Q K q z data S) := by
  intro n
  induction n with
  | zero =>
    intro data hn S
    rw [List.length_eq_zero_iff.1 (Nat.le_zero.1 hn)]
    exact Rel.pure _
  | succ n ih =>
    intro data hn S
    match data with
    | [] => exact Rel.pure _
    | [_] => exact Rel.pure _
    | [_, _] => exact Rel.pure _
    | a :: b :: c :: rest =>
      unfold absorbNN
      exact Rel.bind (addState_rel _ _) fun _ => Rel.bind (perm_rel _ _) fun _ =>
        ih _ (by simp only [List.length_cons] at hn; omega) _

theorem squeeze_rel (K : Consts) : ∀ (fuel : ℕ) (S : NState p) (n : ℕ), Rel (squeezeNN Q K fuel S n) (squeezeNN Q K fuel S n) := by
  intro fuel
  induction fuel with
  | zero => intro S n; exact Rel.pure _
  | succ fuel ih =>
    intro S n
    unfold squeezeNN
    by_cases h : n - min n 3 = 0
    · simp only [h, if_true]; exact Rel.pure _
    · simp only [h, if_false]
      exact Rel.bind (perm_rel _ _) fun _ => Rel.bind (ih _ _) fun _ => Rel.pure _

theorem sponge_rel (K : Consts) (data : List (FpElemVar p)) (num : ℕ) : Rel (spongeNN Q K data num) (spongeNN Q K data num) := by
  unfold spongeNN
  match data with
  | [] => exact Rel.failL _ _
  | [_] => exact Rel.failL _ _
  | [_, _] => exact Rel.failL _ _
  | a :: b :: c :: rest =>
    exact Rel.guard (Rel.bind (Rel.liftE _) fun _ => Rel.bind (perm_rel _ _) fun _ =>
      Rel.bind (absorb_rel _ _ _ _ _ le_rfl _) fun _ => squeeze_rel _ _ _ _)

theorem keyedLoop_rel (K : Consts) (q : FpElem p) : ∀ (n : ℕ) (data : List (FpElemVar p)), data.length ≤ n →
    ∀ S : NState p, Rel (keyedLoopNN Q K q data S) (keyedLoopNN Q K q data S) := by
  intro n
  induction n with
  | zero =>
    intro data hn S
    rw [List.length_eq_zero_iff.1 (Nat.le_zero.1 hn)]
    exact Rel.pure _
  | succ n ih =>
    intro data hn S
    match data with
    | [] => exact Rel.pure _
    | [_] => exact Rel.pure _
    | [_, _] => exact Rel.pure _
    | [_, _, _] => exact Rel.pure _
    | a :: b :: c :: d :: rest =>
      unfold keyedLoopNN
      exact Rel.bind (addState_rel _ _) fun _ => Rel.bind (perm_rel _ _) fun _ =>
        ih _ (by simp only [List.length_cons] at hn; omega) _

theorem keyed_rel (K : Consts) (key : FpElemVar p) (data : List (FpElemVar p)) :
    Rel (keyedNN Q K key data) (keyedNN Q K key data) := by
  unfold keyedNN
  cases data with
  | nil => exact Rel.failL _ _
  | cons a l =>
    exact Rel.guard (Rel.bind (Rel.liftE _) fun _ => Rel.bind (keyedLoop_rel _ _ _ _ le_rfl _) fun _ => Rel.pure _)

end

/-! ## Other witnesses for one sum of the cipher -/

section
variable {p Q : ℕ} [hp : Fact p.Prime]

/-- `non_native_power_11_gen` with other hints for the first two products -/
def power11GenAdv (Q : ℕ) (x : FpElemVar p) (h h' : MulHints p) : Build p (FpElemVar p) := do
  let q ← liftE (FpElem.new (Q : ZMod p) x.m (some x.tpm))
  let x2 ← modMulAdv x x q h
  let x3 ← modMulAdv x2 x q h'
  let x4 ← modMul x2 x2 q
  let x8 ← modMul x4 x4 q
  modMul x3 x8 q

def power11GateAdv (Q : ℕ) (x x11 : FpElemVar p) (h h' : MulHints p) : Build p Unit := do
  let y ← power11GenAdv Q x h h'
  enforceEqual x11.v0 y.v0
  enforceEqual x11.v1 y.v1

theorem power11Gate_rel' (x y : FpElemVar p) (h h' : MulHints p) : Rel (power11GateNN Q x y) (power11GateAdv Q x y h h') := by
  unfold power11GateNN power11GateAdv power11Gen power11GenAdv
  simp only [build_bind_assoc]
  exact Rel.checkVars_bindL (Rel.guardL (Rel.bind (Rel.liftE _) fun _ => Rel.bind (modMul_rel' _ _ _ _) fun _ =>
    Rel.bind (modMul_rel' _ _ _ _) fun _ => Rel.bind (modMul_rel _ _ _) fun _ => Rel.bind (modMul_rel _ _ _) fun _ =>
    Rel.bind (modMul_rel _ _ _) fun _ => Rel.bind (enforceEqual_rel _ _) fun _ => enforceEqual_rel _ _))

/-- `add_state` with other values for the first sum -/
def addStateAdv (S T : NState p) (z r0 r1 : ZMod p) : Build p (NState p) := do
  let a ← modAdd2Adv S.s.a T.s.a S.mod z (r0 + S.mod.tpm * r1) r0 r1
  let b ← modAdd S.s.b T.s.b S.mod
  let c ← modAdd S.s.c T.s.c S.mod
  let d ← modAdd S.s.d T.s.d S.mod
  pure ⟨⟨a, b, c, d⟩, S.mod⟩

theorem addState_rel' (S T : NState p) (z r0 r1 : ZMod p) : Rel (addStateNN S T) (addStateAdv S T z r0 r1) := by
  unfold addStateNN addStateAdv vecM
  simp only [build_bind_assoc, build_pure_bind]
  exact Rel.checkVars_bindL (Rel.checkVars_bindL (Rel.guardL (Rel.bind (modAdd_rel' _ _ _ _ _ _ _) fun _ =>
    Rel.bind (modAdd_rel _ _ _) fun _ => Rel.bind (modAdd_rel _ _ _) fun _ => Rel.bind (modAdd_rel _ _ _) fun _ => Rel.pure _)))

/-- `non_linear_transform` with the value zero for the eleventh power of the first entry -/
def nonLinearAdv (K : Consts) (S : NState p) (x : Vec (ZMod Q)) (M : Mat (ZMod Q)) (k : Vec (ZMod Q)) (h h' : MulHints p) :
    Build p (NState p) := do
  let a ← newAt S.mod.m S.s.a.tpm (0 : ZMod Q)
  power11GateAdv Q S.s.a a h h'
  let b ← power11RowNN K.A S.mod.m S.s.a.tpm (S.s.b, x.b)
  let c ← power11RowNN K.A S.mod.m S.s.a.tpm (S.s.c, x.c)
  let d ← power11RowNN K.A S.mod.m S.s.a.tpm (S.s.d, x.d)
  affineNN ⟨⟨a, b, c, d⟩, S.mod⟩ M k

theorem nonLinear_rel' (K : Consts) (S : NState p) (x : Vec (ZMod Q)) (M : Mat (ZMod Q)) (k : Vec (ZMod Q))
    (h h' : MulHints p) : Rel (nonLinearNN K S M k) (nonLinearAdv K S x M k h h') := by
  unfold nonLinearNN nonLinearAdv
  refine Rel.checkVars_bindL (wits_bindL _ fun _ => switches_bindL _ fun r => ?_)
  by_cases hA : K.A = 11
  · rw [if_pos hA]
    unfold vecM
    simp only [build_bind_assoc, build_pure_bind]
    rw [power11RowNN]
    simp only [build_bind_assoc, build_pure_bind]
    exact Rel.bind (newAt_rel _ _ _ _) fun _ => Rel.bind (power11Gate_rel' _ _ _ _) fun _ =>
      Rel.bind (power11Row_rel _ _ _ _ _ _) fun _ => Rel.bind (power11Row_rel _ _ _ _ _ _) fun _ =>
      Rel.bind (power11Row_rel _ _ _ _ _ _) fun _ => affineNN_rel _ _ _
  · rw [if_neg hA]; exact Rel.failL _ _

/-- `prp` with other values for the sum that enters round 1 -/
def prpAdv (K : Consts) (key S : NState p) (x : Vec (ZMod Q)) (z r0 r1 : ZMod p) (h h' : MulHints p) :
    Build p (NState p × List (Vec (FpElemVar p))) := do
  let M := (PRP.default K : PRP (ZMod Q)).mds
  let keys ← keyScheduleNN K M key (PRP.default K)
  match keys with
  | k0 :: k1 :: k2 :: ks => do
    let S ← addStateNN S k0
    let T ← roundNN K M 0 S Rescue.zeroVec
    let U ← addStateAdv T k1 z r0 r1
    let V ← nonLinearAdv K U x M Rescue.zeroVec h h'
    let W ← addStateNN V k2
    let R ← varKeysNN K M 2 ks W
    pure (R.1, U.s :: R.2)
  | _ => Build.fail .panic

theorem prp_rel' (K : Consts) (key S : NState p) (x : Vec (ZMod Q)) (z r0 r1 : ZMod p) (h h' : MulHints p) :
    Rel (prpNN Q K key S) (prpAdv K key S x z r0 r1 h h') := by
  unfold prpNN prpAdv
  refine Rel.bind (keySchedule_rel _ _ _ _) fun keys => ?_
  unfold prpWithKeysNN
  refine Rel.guardL ?_
  match keys with
  | [] => exact Rel.failL _ _
  | [_] => exact Rel.failR _ _
  | [_, _] => exact Rel.failR _ _
  | k0 :: k1 :: k2 :: ks =>
    simp only [varKeysNN, build_bind_assoc, build_pure_bind]
    refine Rel.bind (addState_rel _ _) fun S => Rel.bind (round_rel _ _ _ _ _) fun T =>
      Rel.bind (addState_rel' _ _ _ _ _) fun U => ?_
    rw [roundNN, if_neg (by decide)]
    refine Rel.bind (nonLinear_rel' _ _ _ _ _ _ _) fun V => Rel.bind (addState_rel _ _) fun W =>
      Rel.bind (varKeys_rel _ _ _ _ _) fun R => ?_
    exact Rel.pure _

end

/-! ## They are accepted -/

section
variable {p : ℕ} [hp : Fact p.Prime] {Q : ℕ} [hQ : Fact Q.Prime] {I : Info p} {k : ℕ}

/-- the sum `A + B` is given the limbs `r0`, `r1` with quotient `z`; the hints of its square stand for zero -/
structure SqAttack (I : Info p) (Q k : ℕ) (A B : ZMod Q) (z r0 r1 : ZMod p) (h : MulHints p) : Prop where
  zlt : z.val < 2 ^ k
  sum : r0 + I.mod.tpm * r1 = ((A.val + B.val : ℕ) : ZMod p) - I.mod.fieldElem * z
  ranges : h.Ranges I.mod.m k
  eqs : h.Eqs I.mod r0 r1 r0 r1
  z0 : h.z0 = 0
  z1 : h.z1 = 0

/-- the hints for zero times any element -/
def zeroHints (q : FpElem p) : MulHints p := ⟨0, 0, 0, 0, q.tpm, 2 * q.tpm⟩

theorem zeroHints_eqs (q : FpElem p) (r0 r1 : ZMod p) : (zeroHints q).Eqs q 0 0 r0 r1 := by
  constructor <;> simp only [zeroHints] <;> ring

theorem hol_zero {c : Circ p} {x : FpElemVar p} (hi : x.In c) (hm : x.Match I.mod) (h0 : c.val x.v0 = 0) (h1 : c.val x.v1 = 0) :
    Hol True I.mod (0 : ZMod Q) x c := by
  refine ⟨hi, hm, fun _ => ⟨?_, ?_⟩⟩
  · rw [h0]; simp
  · rw [h1]; simp

theorem power11GateAdv_spec (h : Par I Q k) {c : Circ p} (hc : Ctx True k c) {x y : FpElemVar p} {r0 r1 : ZMod p}
    (hx : x.In c) (mx : x.Match I.mod) (x0 : c.val x.v0 = r0) (x1 : c.val x.v1 = r1) (hy : Hol True I.mod (0 : ZMod Q) y c)
    {hh : MulHints p} (ha : hh.Ranges I.mod.m k) (he : hh.Eqs I.mod r0 r1 r0 r1) (hz0 : hh.z0 = 0) (hz1 : hh.z1 = 0)
    (hzr : (zeroHints I.mod).Ranges I.mod.m k) :
    Spec (power11GateAdv Q x y hh (zeroHints I.mod)) c True (fun _ _ => True) (fun _ _ => True) := by
  unfold power11GateAdv power11GenAdv
  simp only [build_bind_assoc]
  refine Spec.liftE_bind (modulus_new h mx) ?_
  refine hbind hc.wf (VerifierPoly.mulAdv_spec hc hx hx I.mod h.mul.mpos hh ha (by rw [x0, x1]; exact he)) ?_
  rintro x2 c1 e1 ⟨i2, m2, v0, v1⟩
  have hc1 := hc.ext e1
  have h2 : Hol True I.mod (0 : ZMod Q) x2 c1 := hol_zero i2 m2 (v0.trans hz0) (v1.trans hz1)
  refine hbind e1.wf (VerifierPoly.mulAdv_spec hc1 i2 (hx.ext e1) I.mod h.mul.mpos (zeroHints I.mod) hzr ?_) ?_
  · rw [v0, v1, hz0, hz1]; exact zeroHints_eqs _ _ _
  rintro x3 c2 e2 ⟨i3, m3, u0, u1⟩
  have hc2 := hc1.ext e2
  have h3 : Hol True I.mod (0 : ZMod Q) x3 c2 := hol_zero i3 m3 u0 u1
  refine hbind e2.wf (mul_ew h hc2 (h2.ext e2) (h2.ext e2)) ?_
  intro x4 c3 e3 h4
  have hc3 := hc2.ext e3
  refine hbind e3.wf (mul_ew h hc3 h4 h4) ?_
  intro x8 c4 e4 h8
  have hc4 := hc3.ext e4
  refine hbind e4.wf (mul_ew h hc4 ((h3.ext e3).ext e4) h8) ?_
  intro x11 c5 e5 h11
  refine Spec.conseq e5.wf (eq2_spec (hc4.ext e5) (hy.ext ((((e1.trans e2).trans e3).trans e4).trans e5)) h11 (fun _ => by ring))
    (fun h _ _ => h) (fun _ _ _ _ => trivial) (fun _ _ _ _ _ _ _ _ _ _ => trivial)

theorem addStateAdv_spec (h : Par I Q k) {c : Circ p} (hc : Ctx True k c) {S T : NState p} {a b : Vec (ZMod Q)}
    (hS : HolN True I a S c) (hT : HolN True I b T c) {z r0 r1 : ZMod p} {hh : MulHints p}
    (hA : SqAttack I Q k a.a b.a z r0 r1 hh) :
    Spec (addStateAdv S T z r0 r1) c True (fun U c' => U.mod = I.mod ∧ (U.s.a.In c' ∧ U.s.a.Match I.mod ∧
      c'.val U.s.a.v0 = r0 ∧ c'.val U.s.a.v1 = r1) ∧ Hol True I.mod (a.b + b.b) U.s.b c' ∧
      Hol True I.mod (a.c + b.c) U.s.c c' ∧ Hol True I.mod (a.d + b.d) U.s.d c') (fun _ _ => True) := by
  unfold addStateAdv
  rw [hS.mod]
  refine hbind hc.wf (VerifierPoly.addAdv_spec hc (hS.s 0).1 (hT.s 0).1 I.mod (hS.s 0).2.1.1 z r0 r1 hA.zlt ?_) ?_
  · rw [hA.sum]
    show _ = (S.s.get 0).felt c.val + (T.s.get 0).felt c.val - _
    rw [((hS.s 0).2.2 trivial).felt h (hS.s 0).2.1, ((hT.s 0).2.2 trivial).felt h (hT.s 0).2.1]
    push_cast
    rfl
  rintro va c1 e1 ⟨i1, m1, v0, v1⟩
  have hc1 := hc.ext e1
  refine hbind e1.wf (add_un h hc1 ((hS.s 1).ext e1) ((hT.s 1).ext e1)) ?_
  intro vb c2 e2 hb
  have hc2 := hc1.ext e2
  have x2 := e1.trans e2
  refine hbind e2.wf (add_un h hc2 ((hS.s 2).ext x2) ((hT.s 2).ext x2)) ?_
  intro vc c3 e3 hcc
  have hc3 := hc2.ext e3
  have x3 := x2.trans e3
  refine hbind e3.wf (add_un h hc3 ((hS.s 3).ext x3) ((hT.s 3).ext x3)) ?_
  intro vd c4 e4 hd
  have y4 := (e2.trans e3).trans e4
  refine Spec.pure e4.wf ⟨rfl, ⟨i1.ext y4, m1, ?_, ?_⟩, (hb.ext e3).ext e4, hcc.ext e4, hd⟩ (fun _ _ _ _ _ _ _ => trivial)
  · rw [y4.val _ i1.1]; exact v0
  · rw [y4.val _ i1.2]; exact v1

theorem nonLinearAdv_spec (h : Par I Q k) {c : Circ p} (hc : Ctx True k c) {K : Consts} (hA : K.A = 11) {S : NState p}
    {x : Vec (ZMod Q)} {r0 r1 : ZMod p} (hm : S.mod = I.mod) (ia : S.s.a.In c) (ma : S.s.a.Match I.mod)
    (h0 : c.val S.s.a.v0 = r0) (h1 : c.val S.s.a.v1 = r1) (hb : Hol True I.mod x.b S.s.b c) (hcc : Hol True I.mod x.c S.s.c c)
    (hd : Hol True I.mod x.d S.s.d c) (M : Mat (ZMod Q)) (b : Vec (ZMod Q)) {hh : MulHints p} (ha : hh.Ranges I.mod.m k)
    (he : hh.Eqs I.mod r0 r1 r0 r1) (hz0 : hh.z0 = 0) (hz1 : hh.z1 = 0) (hzr : (zeroHints I.mod).Ranges I.mod.m k) :
    Spec (nonLinearAdv K S x M b hh (zeroHints I.mod)) c True
      (fun T c' => HolN True I (Rescue.linear ⟨0, x.b ^ 11, x.c ^ 11, x.d ^ 11⟩ M b) T c') (fun _ _ => True) := by
  unfold nonLinearAdv
  rw [hA, hm, ← ma.1]
  refine hbind hc.wf (newAt_spec h hc (x := S.s.a) ma (y := (0 : ZMod Q)) (a := 0) (fun _ => rfl)) ?_
  intro a c1 e1 hav
  have hc1 := hc.ext e1
  refine hbind e1.wf (power11GateAdv_spec h hc1 (ia.ext e1) ma ((e1.val _ ia.1).trans h0) ((e1.val _ ia.2).trans h1) hav ha he
    hz0 hz1 hzr) ?_
  intro _ c2 e2 _
  have hc2 := hc1.ext e2
  have x2 := e1.trans e2
  refine hbind e2.wf (power11RowNN_spec h hc2 (hb.ext x2) (z := S.s.a) ma (fun _ => rfl)) ?_
  intro vb c3 e3 h3
  have hc3 := hc2.ext e3
  have x3 := x2.trans e3
  refine hbind e3.wf (power11RowNN_spec h hc3 (hcc.ext x3) (z := S.s.a) ma (fun _ => rfl)) ?_
  intro vc c4 e4 h4
  have hc4 := hc3.ext e4
  have x4 := x3.trans e4
  refine hbind e4.wf (power11RowNN_spec h hc4 (hd.ext x4) (z := S.s.a) ma (fun _ => rfl)) ?_
  intro vd c5 e5 h5
  have hc5 := hc4.ext e5
  refine Spec.conseq e5.wf (affineNN_spec h hc5 (S := ⟨⟨a, vb, vc, vd⟩, I.mod⟩)
    (holN_mk ((((hav.ext e2).ext e3).ext e4).ext e5) ((h3.ext e4).ext e5) (h4.ext e5) h5) M b)
    (fun h _ _ => h) (fun _ _ _ g => g) (fun _ _ _ _ _ _ _ _ _ _ => trivial)

theorem prpAdv_spec (h : Par I Q k) {c : Circ p} (hc : Ctx True k c) {K : Consts} (hA : K.A = 11) (hg : Good Q K)
    {key S : NState p} {a b : Vec (ZMod Q)} (hK : HolN True I b key c)
    (hS : HolN True I a S c) {j1 j2 : Vec (ZMod Q)} {js : List (Vec (ZMod Q))}
    (hj : (PRP.default K : PRP (ZMod Q)).keyInjection = j1 :: j2 :: js) {z r0 r1 : ZMod p} {hh : MulHints p} {u k0 k1 t : Vec (ZMod Q)}
    (hk0 : k0 = Rescue.addVec b (PRP.default K).initVec)
    (hk1 : k1 = Rescue.linear (Rescue.powVec k0 (Rescue.expOf K 0)) (PRP.default K).mds j1)
    (ht : t = Rescue.linear (Rescue.powVec (Rescue.addVec a k0) (Rescue.expOf K 0)) (PRP.default K).mds Rescue.zeroVec)
    (hu : u = Rescue.addVec t k1)
    (hat : SqAttack I Q k t.a k1.a z r0 r1 hh) (hzr : (zeroHints I.mod).Ranges I.mod.m k) :
    Spec (prpAdv K key S u z r0 r1 hh (zeroHints I.mod)) c True
      (fun R c' => HolN True I (Rescue.roundLoop K (PRP.default K).mds 2
        (Rescue.scheduleLoop K (PRP.default K).mds 2 js (Rescue.linear (Rescue.powVec k1 (Rescue.expOf K 1)) (PRP.default K).mds j2))
        (Rescue.addVec (Rescue.linear ⟨0, u.b ^ 11, u.c ^ 11, u.d ^ 11⟩ (PRP.default K).mds Rescue.zeroVec)
          (Rescue.linear (Rescue.powVec k1 (Rescue.expOf K 1)) (PRP.default K).mds j2))) R.1 c') (fun _ _ => True) := by
  unfold prpAdv keyScheduleNN
  simp only [build_bind_assoc, build_pure_bind]
  refine hbind hc.wf (addConstState_spec h hc hK (PRP.default K).initVec) ?_
  intro T0 c1 e1 hT0
  rw [← hk0] at hT0
  have hc1 := hc.ext e1
  refine hbind e1.wf (scheduleNN_spec h hA hg _ _ hc1 0 hT0) ?_
  intro R c2 e2 hR
  have hc2 := hc1.ext e2
  have x2 := e1.trans e2
  rw [hj] at hR
  simp only [Rescue.scheduleLoop] at hR
  rw [← hk1] at hR
  cases hR with
  | cons hy1 hR =>
  cases hR with
  | cons hy2 hR =>
  simp only
  refine hbind e2.wf (addStateNN_spec h hc2 (hS.ext x2) (hT0.ext e2)) ?_
  intro U c3 e3 hU
  have hc3 := hc2.ext e3
  refine hbind e3.wf (roundNN_spec h hc3 hA hg hU _ 0 Rescue.zeroVec) ?_
  intro T c4 e4 hT
  rw [← ht] at hT
  have hc4 := hc3.ext e4
  have y4 := e3.trans e4
  refine hbind e4.wf (addStateAdv_spec h hc4 hT (hy1.ext y4) hat) ?_
  rintro V c5 e5 ⟨hm, ⟨ia, ma, v0, v1⟩, gb, gc, gd⟩
  have hc5 := hc4.ext e5
  refine hbind e5.wf (nonLinearAdv_spec h hc5 hA (x := u) hm ia ma v0 v1 (by rw [hu]; exact gb) (by rw [hu]; exact gc)
    (by rw [hu]; exact gd) _ _ hat.ranges hat.eqs hat.z0 hat.z1 hzr) ?_
  intro W c6 e6 hW
  have hc6 := hc5.ext e6
  have y6 := (y4.trans e5).trans e6
  refine hbind e6.wf (addStateNN_spec h hc6 hW (hy2.ext y6)) ?_
  intro X c7 e7 hX
  have hc7 := hc6.ext e7
  refine hbind e7.wf (varKeysNN_spec h hA hg _ _ hc7 2 hX (hR.imp fun _ _ g => (g.ext y6).ext e7)) ?_
  intro Z c8 e8 hZ
  exact Spec.pure e8.wf hZ (fun _ _ _ _ _ _ _ _ _ _ _ => trivial)

end

end Verif.Circuit.RescueNN
