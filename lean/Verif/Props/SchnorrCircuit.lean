import Verif.Circuit.SchnorrGadget
import Verif.Props.Ecc
import Verif.Props.Msm
import Verif.Props.Schnorr
import Verif.Props.Conversion
import Verif.Props.RescueCircuit
import Verif.Util.ScalarFields

/-!
# C54: the Schnorr verification circuit and the native verifier

`nativeParams T E G cof f` is the native scheme of `Verif/Sig/Schnorr.lean` over the points of the
group `E` of the curve `T`, with the generator `G`, the cofactor `cof` and the Rescue hash made from the
permutation `f`; the context string is `CS_ID_SCHNORR`.

`Equation` is the equation the native verifier checks after it has checked the key.

* `C54_verify_circuit`, `C54_check_circuit`: for all assignments, also adversarial ones, what the two gadgets enforce.
* `C54_verify_iff`: an assignment extends if and only if the equation holds, with the response `s` read modulo the
  group order, and `s` fits into the bits the circuit decomposes it into.
* `C54_agrees_partial`: hence the circuit accepts exactly the signatures the native verifier accepts, for keys not of
  small order. Missing for the full statement: the circuit does not check the order of the key.
* `C54_small_order_counterexample`: for the neutral element as key the circuit accepts a signature of every message,
  made without any secret; the native verifier rejects all of them.
* `C54_alias`: the response variable is not unique.
-/

set_option linter.unusedSectionVars false

namespace Verif.Props.SchnorrCircuit

open Verif.Circuit Verif.Props.Circuit Verif.Props.Ecc Verif.Curves
open Verif.Rescue (Vec Consts)
open Verif.Props.Msm (bnPt ed377Pt ed381Pt bitsOf)
open Verif.Schnorr (mul challenge verify sign Params Signature)

variable {p : ℕ} [Fact p.Prime]

instance (E : EdGroup (ZMod p)) : DecidableEq E.Pt :=
  inferInstanceAs (DecidableEq {P : ZMod p × ZMod p // E.mem P})

/-- the native scheme -/
def nativeParams (T : TE p) (E : EdGroup (ZMod p)) (G : E.Pt) (cof : ℕ) (f : Vec (ZMod p) → Vec (ZMod p)) :
    Params p T.r E.Pt where
  gen := G
  cofactor := cof
  coords := fun P => P.1
  crhf := fun xs => match Rescue.variableEvaluate f 1 xs with
    | .ok (h :: _) => h
    | _ => 0

/-- the equation of the native verifier -/
def Equation {q r : ℕ} {A : Type} [AddCommGroup A] (P : Params q r A) (vk : A) (msg : List (ZMod q)) (s : ZMod r)
    (R : A) : Prop :=
  ∃ c, challenge P vk R msg csIdSchnorr = .ok c ∧ mul P.gen s = R + mul vk c

/-- the native verifier: the key is not of small order and the equation holds -/
theorem verify_iff {q r : ℕ} {A : Type} [AddCommGroup A] [DecidableEq A] (P : Params q r A) (vk : A)
    (msg : List (ZMod q)) (s : ZMod r) (R : A) :
    verify P vk msg ⟨s, R⟩ csIdSchnorr = .ok () ↔ mul vk (P.cofactor : ZMod r) ≠ 0 ∧ Equation P vk msg s R := by
  unfold verify Equation
  by_cases h0 : mul vk (P.cofactor : ZMod r) = 0
  · simp [h0]
  simp only [h0, if_false]
  cases hc : challenge P vk R msg csIdSchnorr with
  | error e => simp
  | ok c =>
    simp only [Except.ok.injEq, exists_eq_left']
    by_cases he : R + mul vk c = mul P.gen s
    · simp [he, h0]
    · rw [if_neg he]
      simp only [reduceCtorEq, false_iff]
      rintro ⟨-, h⟩
      exact he h.symm

/-- the sizes of the two fields: the scalar field is smaller, the challenge has the same number of bits inside and
outside the circuit and is not reduced -/
structure Sizes (T : TE p) : Prop where
  two : p ≠ 2
  pos : 0 < T.r
  fixed : fixedBits T ≤ Nat.size p
  smaller : Nat.size T.r < Nat.size p
  same : challengeBitLen p = 8 * (Nat.size T.r / 8)
  noReduce : 2 ^ challengeBitLen p ≤ T.r

/-- **C54.** The sizes are right for the four curves in use. -/
theorem C54_sizes : Sizes edBn254 ∧ Sizes edBls377 ∧ Sizes edBls381 ∧ Sizes bandersnatch := by
  refine ⟨⟨?_, ?_, ?_, ?_, ?_, ?_⟩, ⟨?_, ?_, ?_, ?_, ?_, ?_⟩, ⟨?_, ?_, ?_, ?_, ?_, ?_⟩, ⟨?_, ?_, ?_, ?_, ?_, ?_⟩⟩ <;>
    decide +kernel

variable {T : TE p} {E : EdGroup (ZMod p)} {K : Consts} {f : Vec (ZMod p) → Vec (ZMod p)}

/-- the native challenge is the number in the circuit -/
theorem challenge_eq (hT : Sizes T) (G : E.Pt) (cof : ℕ) (A B : E.Pt) (msg : List (ZMod p)) :
    ∃ c, challenge (nativeParams T E G cof f) A B msg csIdSchnorr = .ok c ∧ c.val = chalNat f A.1 B.1 msg := by
  have : NeZero T.r := ⟨hT.pos.ne'⟩
  obtain ⟨y, h1, h2⟩ := Conv.C45_mask_value p T.r hT.smaller
    (crhf1 f ([Schnorr.fromBeBytesModOrder p csIdSchnorr, A.1.1, A.1.2, B.1.1, B.1.2] ++ msg))
  refine ⟨y, h1, ?_⟩
  rw [h2]
  unfold chalNat
  rw [hT.same]
  apply Nat.mod_eq_of_lt
  refine lt_of_lt_of_le (Nat.mod_lt _ (by positivity)) ?_
  have := hT.noReduce
  rwa [hT.same] at this

theorem equation_iff (hT : Sizes T) (G : E.Pt) (hG : T.r • G = 0) (cof : ℕ) (A B : E.Pt) (msg : List (ZMod p))
    (s : ZMod p) :
    Equation (nativeParams T E G cof f) A msg (s.val : ZMod T.r) B ↔ SigEq f G A B msg s := by
  have : NeZero T.r := ⟨hT.pos.ne'⟩
  obtain ⟨c, h1, h2⟩ := challenge_eq (f := f) hT G cof A B msg
  have hs : mul (nativeParams T E G cof f).gen (s.val : ZMod T.r) = s.val • G := by
    unfold Schnorr.mul
    rw [ZMod.val_natCast]
    show (s.val % T.r) • G = s.val • G
    conv_rhs => rw [← Nat.mod_add_div s.val T.r, add_nsmul, mul_nsmul, hG, nsmul_zero, add_zero]
  unfold Equation SigEq
  rw [h1]
  simp only [Except.ok.injEq, exists_eq_left']
  rw [hs]
  unfold Schnorr.mul
  rw [h2]

/-- the variables exist -/
def SDom (vk : ℕ × ℕ) (msg : List ℕ) (s : ℕ) (R : ℕ × ℕ) (c : Circ p) : Prop := Dom (s :: msg) [vk, R] c

theorem SDom.sigIn {vk R : ℕ × ℕ} {msg : List ℕ} {s : ℕ} {c : Circ p} (h : SDom vk msg s R c) :
    SigIn vk R msg c ∧ s < c.numVars :=
  ⟨⟨h.2 vk (by simp), h.2 R (by simp), fun v hv => h.1 v (by simp [hv])⟩, h.1 s (by simp)⟩

/-- the key and the nonce point are points of the group, the response fits, and the equation holds -/
def Accepts (T : TE p) {E : EdGroup (ZMod p)} (G : E.Pt) (cof : ℕ) (f : Vec (ZMod p) → Vec (ZMod p)) (vk : ℕ × ℕ)
    (msg : List ℕ) (s : ℕ) (R : ℕ × ℕ) (w : ℕ → ZMod p) : Prop :=
  (w s).val < 2 ^ fixedBits T ∧ ∃ A B : E.Pt, pt w vk = A.1 ∧ pt w R = B.1 ∧
    Equation (nativeParams T E G cof f) A (msg.map w) ((w s).val : ZMod T.r) B

theorem accepts_local {G : E.Pt} {cof : ℕ} {vk : ℕ × ℕ} {msg : List ℕ} {s : ℕ} {R : ℕ × ℕ} {c : Circ p}
    (hd : SDom vk msg s R c) {w w' : ℕ → ZMod p} (h : ∀ i, i < c.numVars → w' i = w i)
    (ha : Accepts T G cof f vk msg s R w) : Accepts T G cof f vk msg s R w' := by
  have hm : msg.map w' = msg.map w := List.map_congr_left fun v hv => h v (hd.1 v (by simp [hv]))
  unfold Accepts at ha ⊢
  rw [pt_congr hd h (by simp : vk ∈ [vk, R]), pt_congr hd h (by simp : R ∈ [vk, R]), hm, h s (hd.1 s (by simp))]
  exact ha

theorem fixedBits_pos (hr : 0 < T.r) : 0 < fixedBits T := by
  have := Nat.size_pos.2 hr
  unfold fixedBits; omega

/-- **C54, the enforcing gadget.** Every satisfying assignment whose key and nonce point are points of the group
satisfies the equation of the native verifier; every assignment that does extends to a satisfying one; the honest
builder succeeds on it. -/
theorem C54_verify_circuit (hf : HashOk K f) (hT : Sizes T) (ha : E.a = T.a) (hd : E.d = T.d) (G : E.Pt)
    (hG : T.r • G = 0) (cof : ℕ) (vk : ℕ × ℕ) (msg : List ℕ) (s : ℕ) (R : ℕ × ℕ) :
    Correct (verifySignature T G.1 K vk msg s R) (SDom vk msg s R) (Accepts T G cof f vk msg s R)
      (fun _ w => (w s).val < 2 ^ fixedBits T ∧ ∀ A B : E.Pt, pt w vk = A.1 → pt w R = B.1 →
        Equation (nativeParams T E G cof f) A (msg.map w) ((w s).val : ZMod T.r) B) := by
  refine correct_of (verifySignature_rel T G.1 K vk msg s R) (fun _ _ h => h)
    (fun c w w' hdm h hp => accepts_local hdm h hp) (fun c hc hdm => ⟨fun _ _ => True, ?_⟩)
  refine Spec.conseq hc (verifySignature_spec hT.two hf ⟨ha, hd⟩ (fixedBits_pos hT.pos) hT.fixed hc G vk msg s R) ?_
    (fun _ _ _ _ => trivial) ?_
  · rintro ⟨h1, A, B, hA, hB, hAB⟩ - -
    exact ⟨hdm.sigIn, h1, A, B, hA, hB, (equation_iff hT G hG cof A B _ _).1 hAB⟩
  · rintro _ w - - ⟨h1, h2⟩
    exact ⟨h1, fun A B hA hB => (equation_iff hT G hG cof A B _ _).2 (h2 A B hA hB)⟩

/-- **C54, exactly.** For a key and a nonce point in the group: the assignment extends to a satisfying one if and only
if the response fits into the bits of the decomposition and the native equation holds for it, modulo the group order. -/
theorem C54_verify_iff (hf : HashOk K f) (hT : Sizes T) (ha : E.a = T.a) (hd : E.d = T.d) (G : E.Pt)
    (hG : T.r • G = 0) (cof : ℕ) (vk : ℕ × ℕ) (msg : List ℕ) (s : ℕ) (R : ℕ × ℕ) {c : Circ p} (hc : WF c)
    (hdm : SDom vk msg s R c) {u : Unit} {c' : Circ p} (hm : verifySignature T G.1 K vk msg s R c = .ok (u, c'))
    {pi : List (ZMod p)} {w : ℕ → ZMod p} (hw : Sat c pi w) (A B : E.Pt) (hA : pt w vk = A.1) (hB : pt w R = B.1) :
    (∃ w' : ℕ → ZMod p, (∀ i, i < c.numVars → w' i = w i) ∧ Sat c' pi w') ↔
      (w s).val < 2 ^ fixedBits T ∧
        Equation (nativeParams T E G cof f) A (msg.map w) ((w s).val : ZMod T.r) B := by
  have h := C54_verify_circuit hf hT ha hd G hG cof vk msg s R
  constructor
  · rintro ⟨w', h1, h2⟩
    obtain ⟨-, g1, g2⟩ := h.sound c hc hdm u c' hm pi w' h2
    have hmsg : msg.map w' = msg.map w := List.map_congr_left fun v hv => h1 v (hdm.1 v (by simp [hv]))
    have := g2 A B (by rw [pt_congr hdm h1 (by simp : vk ∈ [vk, R]), hA])
      (by rw [pt_congr hdm h1 (by simp : R ∈ [vk, R]), hB])
    rw [hmsg, h1 s (hdm.1 s (by simp))] at this
    rw [h1 s (hdm.1 s (by simp))] at g1
    exact ⟨g1, this⟩
  · rintro ⟨h1, h2⟩
    exact h.complete c hc hdm u c' hm pi w hw ⟨h1, A, B, hA, hB, h2⟩

/-- **C54 (partial).** For a key that is not of small order and a response that fits, the circuit accepts if and only
if the native verifier does. Missing: keys of small order, for which the statement is false. -/
theorem C54_agrees_partial (hf : HashOk K f) (hT : Sizes T) (ha : E.a = T.a) (hd : E.d = T.d) (G : E.Pt)
    (hG : T.r • G = 0) (cof : ℕ) (vk : ℕ × ℕ) (msg : List ℕ) (s : ℕ) (R : ℕ × ℕ) {c : Circ p} (hc : WF c)
    (hdm : SDom vk msg s R c) {u : Unit} {c' : Circ p} (hm : verifySignature T G.1 K vk msg s R c = .ok (u, c'))
    {pi : List (ZMod p)} {w : ℕ → ZMod p} (hw : Sat c pi w) (A B : E.Pt) (hA : pt w vk = A.1) (hB : pt w R = B.1)
    (hcof : mul A ((cof : ℕ) : ZMod T.r) ≠ 0) :
    (∃ w' : ℕ → ZMod p, (∀ i, i < c.numVars → w' i = w i) ∧ Sat c' pi w') ↔
      (w s).val < 2 ^ fixedBits T ∧
        verify (nativeParams T E G cof f) A (msg.map w) ⟨((w s).val : ZMod T.r), B⟩ csIdSchnorr = .ok () := by
  rw [C54_verify_iff hf hT ha hd G hG cof vk msg s R hc hdm hm hw A B hA hB, verify_iff]
  exact ⟨fun h => ⟨h.1, hcof, h.2⟩, fun h => ⟨h.1, h.2.2⟩⟩

open Classical in
/-- **C54, the gadget returning a bit.** The bit is the truth value of the native equation; the honest builder succeeds
for every key and nonce point in the group and every response that fits. -/
theorem C54_check_circuit (hf : HashOk K f) (hT : Sizes T) (ha : E.a = T.a) (hd : E.d = T.d) (G : E.Pt)
    (hG : T.r • G = 0) (cof : ℕ) (vk : ℕ × ℕ) (msg : List ℕ) (s : ℕ) (R : ℕ × ℕ) :
    Correct (checkSignatureValidity T G.1 K vk msg s R) (SDom vk msg s R)
      (fun w => (w s).val < 2 ^ fixedBits T ∧ E.mem (pt w vk) ∧ E.mem (pt w R))
      (fun v w => (w s).val < 2 ^ fixedBits T ∧ ∀ A B : E.Pt, pt w vk = A.1 → pt w R = B.1 →
        w v = if Equation (nativeParams T E G cof f) A (msg.map w) ((w s).val : ZMod T.r) B then 1 else 0) := by
  refine correct_of (checkSignatureValidity_rel T G.1 K vk msg s R) (fun _ _ h => h) ?_ (fun c hc hdm => ⟨fun _ _ => True, ?_⟩)
  · rintro c w w' hdm h h1
    rw [pt_congr hdm h (by simp : vk ∈ [vk, R]), pt_congr hdm h (by simp : R ∈ [vk, R]), h s (hdm.1 s (by simp))]
    exact h1
  refine Spec.conseq hc (checkSignatureValidity_spec hT.two hf ⟨ha, hd⟩ (fixedBits_pos hT.pos) hT.fixed hc G vk msg s R)
    ?_ (fun _ _ _ _ => trivial) ?_
  · rintro ⟨h1, h2, h3⟩ - -
    exact ⟨hdm.sigIn, h1, ⟨_, h2⟩, ⟨_, h3⟩, rfl, rfl⟩
  · rintro v w - - ⟨h1, h2⟩
    refine ⟨h1, fun A B hA hB => ?_⟩
    rw [h2 A B hA hB]
    simp only [equation_iff hT G hG cof A B]

/-- **C54, the bit and the native verifier.** For a key not of small order the bit is one if and only if the native
verifier accepts, in every satisfying assignment. -/
theorem C54_bit_partial (hf : HashOk K f) (hT : Sizes T) (ha : E.a = T.a) (hd : E.d = T.d) (G : E.Pt)
    (hG : T.r • G = 0) (cof : ℕ) (vk : ℕ × ℕ) (msg : List ℕ) (s : ℕ) (R : ℕ × ℕ) {c : Circ p} (hc : WF c)
    (hdm : SDom vk msg s R c) {v : ℕ} {c' : Circ p} (hm : checkSignatureValidity T G.1 K vk msg s R c = .ok (v, c'))
    {pi : List (ZMod p)} {w : ℕ → ZMod p} (hw : Sat c' pi w) (A B : E.Pt) (hA : pt w vk = A.1) (hB : pt w R = B.1)
    (hcof : mul A ((cof : ℕ) : ZMod T.r) ≠ 0) :
    (w v = 0 ∨ w v = 1) ∧ (w v = 1 ↔
      verify (nativeParams T E G cof f) A (msg.map w) ⟨((w s).val : ZMod T.r), B⟩ csIdSchnorr = .ok ()) := by
  obtain ⟨-, -, h⟩ := (C54_check_circuit hf hT ha hd G hG cof vk msg s R).sound c hc hdm v c' hm pi w hw
  have e := h A B hA hB
  rw [verify_iff]
  by_cases hq : Equation (nativeParams T E G cof f) A (msg.map w) ((w s).val : ZMod T.r) B
  · rw [if_pos hq] at e
    exact ⟨Or.inr e, fun _ => ⟨hcof, hq⟩, fun _ => e⟩
  · rw [if_neg hq] at e
    exact ⟨Or.inl e, fun h1 => absurd (e.symm.trans h1) zero_ne_one, fun h1 => absurd h1.2 hq⟩

/-- the equation for the neutral key -/
theorem equation_zero (hT : Sizes T) (G : E.Pt) (cof : ℕ) (msg : List (ZMod p)) (s : ZMod T.r) (B : E.Pt) :
    Equation (nativeParams T E G cof f) (0 : E.Pt) msg s B ↔ B = mul G s := by
  obtain ⟨c, h1, -⟩ := challenge_eq (f := f) hT G cof (0 : E.Pt) B msg
  unfold Equation
  rw [h1]
  simp only [Except.ok.injEq, exists_eq_left', Schnorr.mul, nsmul_zero, add_zero]
  exact eq_comm

/-- **C54, refuted for keys of small order.** With the neutral element as key, whatever the message: every response
that fits together with `s G` as nonce point is accepted by the circuit, and the native verifier rejects every
signature. -/
theorem C54_small_order_counterexample (hf : HashOk K f) (hT : Sizes T) (ha : E.a = T.a) (hd : E.d = T.d) (G : E.Pt)
    (hG : T.r • G = 0) (cof : ℕ) (vk : ℕ × ℕ) (msg : List ℕ) (s : ℕ) (R : ℕ × ℕ) {c : Circ p} (hc : WF c)
    (hdm : SDom vk msg s R c) {u : Unit} {c' : Circ p} (hm : verifySignature T G.1 K vk msg s R c = .ok (u, c'))
    {pi : List (ZMod p)} {w : ℕ → ZMod p} (hw : Sat c pi w) (hv : pt w vk = (0, 1))
    (hs : (w s).val < 2 ^ fixedBits T) (hR : pt w R = ((w s).val • G : E.Pt).1) :
    (∃ w' : ℕ → ZMod p, (∀ i, i < c.numVars → w' i = w i) ∧ Sat c' pi w') ∧
      ∀ sig, verify (nativeParams T E G cof f) (0 : E.Pt) (msg.map w) sig csIdSchnorr = .error .smallOrder := by
  constructor
  · rw [C54_verify_iff hf hT ha hd G hG cof vk msg s R hc hdm hm hw (0 : E.Pt) _ hv hR]
    refine ⟨hs, ?_⟩
    rw [equation_iff hT G hG]
    show _ = _ + _ • (0 : E.Pt)
    rw [nsmul_zero, add_zero]
  · intro sig
    simp [verify, Schnorr.mul]

/-- **C54, the response variable is not unique.** If `s` is accepted and `s + r` fits into the decomposition, an
assignment that differs in the response only is accepted as well. -/
theorem C54_alias (hf : HashOk K f) (hT : Sizes T) (ha : E.a = T.a) (hd : E.d = T.d) (G : E.Pt)
    (hG : T.r • G = 0) (vk : ℕ × ℕ) (msg : List ℕ) (s : ℕ) (R : ℕ × ℕ) {c : Circ p} (hc : WF c)
    (hdm : SDom vk msg s R c) {u : Unit} {c' : Circ p} (hm : verifySignature T G.1 K vk msg s R c = .ok (u, c'))
    {pi : List (ZMod p)} {w w2 : ℕ → ZMod p} (hw : Sat c pi w) (hw2 : Sat c pi w2)
    (hsame : ∀ i, i < c.numVars → i ≠ s → w2 i = w i) (hmsg : s ∉ msg) (hvk : vk.1 ≠ s ∧ vk.2 ≠ s)
    (hRs : R.1 ≠ s ∧ R.2 ≠ s) (hs2 : (w2 s).val = (w s).val + T.r) (hfit : (w s).val + T.r < 2 ^ fixedBits T)
    (hvkm : E.mem (pt w vk)) (hRm : E.mem (pt w R))
    (hacc : ∃ w' : ℕ → ZMod p, (∀ i, i < c.numVars → w' i = w i) ∧ Sat c' pi w') :
    ∃ w' : ℕ → ZMod p, (∀ i, i < c.numVars → w' i = w2 i) ∧ Sat c' pi w' := by
  have hIn := hdm.sigIn
  have e1 : pt w2 vk = pt w vk := by
    unfold pt; rw [hsame _ hIn.1.1.1 hvk.1, hsame _ hIn.1.1.2 hvk.2]
  have e2 : pt w2 R = pt w R := by
    unfold pt; rw [hsame _ hIn.1.2.1.1 hRs.1, hsame _ hIn.1.2.1.2 hRs.2]
  have e3 : msg.map w2 = msg.map w := List.map_congr_left fun v hv =>
    hsame v (hIn.1.2.2 v hv) (fun h => hmsg (h ▸ hv))
  obtain ⟨h1, h2⟩ := (C54_verify_iff hf hT ha hd G hG 0 vk msg s R hc hdm hm hw ⟨_, hvkm⟩ ⟨_, hRm⟩ rfl rfl).1 hacc
  refine (C54_verify_iff hf hT ha hd G hG 0 vk msg s R hc hdm hm hw2 ⟨_, hvkm⟩ ⟨_, hRm⟩ e1 e2).2 ⟨?_, ?_⟩
  · rw [hs2]; exact hfit
  · rw [e3, hs2, Nat.cast_add, ZMod.natCast_self, add_zero]
    exact h2

/-! ## The whole flow: variables for key, message and signature, then the gadget -/

/-- `create_variable` for every element -/
def createAll : List (ZMod p) → Build p (List ℕ)
  | [] => pure []
  | x :: xs => do
    let v ← createVariable x
    let vs ← createAll xs
    pure (v :: vs)

/-- what `build_verify_sig_circuit` of the tests does, `schnorr.rs:272-290` -/
def flow (T : TE p) (G : ZMod p × ZMod p) (K : Consts) (vk : ZMod p × ZMod p) (msg : List (ZMod p)) (s : ZMod T.r)
    (R : ZMod p × ZMod p) : Build p Unit := do
  let vkVar ← createSignatureVkVariable vk
  let sg ← createSignatureVariable s R
  let ms ← createAll msg
  verifySignature T G K vkVar ms sg.1 sg.2

theorem createAll_spec (xs : List (ZMod p)) : ∀ {c : Circ p} (_ : WF c), Spec (createAll xs) c True
    (fun vs c' => (∀ v ∈ vs, v < c'.numVars) ∧ vs.map c'.val = xs) (fun _ _ => True) := by
  induction xs with
  | nil => intro c hc; exact Spec.pure hc ⟨by simp, rfl⟩ (fun _ _ _ => trivial)
  | cons x xs ih =>
    intro c hc
    unfold createAll
    refine Spec.bind (createVariable_spec hc x True) (fun _ _ _ => trivial) hc ?_
    rintro v c1 e1 ⟨hv, hx⟩
    refine Spec.bind (ih e1.wf) (fun _ _ _ => trivial) e1.wf ?_
    rintro vs c2 e2 ⟨hvs, hm⟩
    refine Spec.pure e2.wf ⟨?_, ?_⟩ (fun _ _ _ _ _ => trivial)
    · intro y hy
      rcases List.mem_cons.1 hy with rfl | hy
      · exact e2.lt hv
      · exact hvs y hy
    · rw [List.map_cons, hm, e2.val v hv, hx]

/-- **C54, the flow exactly.** Building the circuit for a key, a message and a signature and checking it succeeds if
and only if the native equation holds. -/
theorem C54_flow_iff (hf : HashOk K f) (hT : Sizes T) (ha : E.a = T.a) (hd : E.d = T.d) (G : E.Pt)
    (hG : T.r • G = 0) (cof : ℕ) (A B : E.Pt) (msg : List (ZMod p)) (s : ZMod T.r)
    {c : Circ p} (hc : WF c) {pi : List (ZMod p)} (hch : checkSat c pi = .ok ()) :
    (∃ c', flow T G.1 K A.1 msg s B.1 c = .ok ((), c') ∧ checkSat c' pi = .ok ()) ↔
      Equation (nativeParams T E G cof f) A msg s B := by
  have : NeZero T.r := ⟨hT.pos.ne'⟩
  have hle : T.r ≤ p := by
    by_contra h
    exact absurd (Nat.size_le_size (le_of_lt (not_le.1 h))) (not_le.2 hT.smaller)
  have hsval : (Conv.frToFq p s).val = s.val := (Conv.C45_embedding_preserves T.r p hle s).1
  have hsfit : s.val < 2 ^ fixedBits T := by
    refine lt_of_lt_of_le (ZMod.val_lt s) (le_trans (le_of_lt (Nat.lt_size_self T.r)) ?_)
    exact Nat.pow_le_pow_right (by norm_num) (by unfold fixedBits; omega)
  have hs0 := (checkSat_ok hc pi).1 hch
  -- the variables
  obtain ⟨vk, c1, h1, hs1⟩ := (createPointVariable_spec hc A.1 True).complete trivial pi hs0
  obtain ⟨e1, ⟨i1, v1⟩, -⟩ := (createPointVariable_spec hc A.1 True).sound _ _ h1
  obtain ⟨sv, c2, h2, hs2⟩ := (createVariable_spec e1.wf (Conv.frToFq p s) True).complete trivial pi hs1
  obtain ⟨e2, ⟨i2, v2⟩, -⟩ := (createVariable_spec e1.wf (Conv.frToFq p s) True).sound _ _ h2
  obtain ⟨R, c3, h3, hs3⟩ := (createPointVariable_spec e2.wf B.1 True).complete trivial pi hs2
  obtain ⟨e3, ⟨i3, v3⟩, -⟩ := (createPointVariable_spec e2.wf B.1 True).sound _ _ h3
  obtain ⟨ms, c4, h4, hs4⟩ := (createAll_spec msg e3.wf).complete trivial pi hs3
  obtain ⟨e4, ⟨i4, v4⟩, -⟩ := (createAll_spec msg e3.wf).sound _ _ h4
  have hflow : flow T G.1 K A.1 msg s B.1 c = verifySignature T G.1 K vk ms sv R c4 := by
    unfold flow createSignatureVkVariable createSignatureVariable
    rw [bind_of_ok h1, bind_of_ok (bind_of_ok (m := createVariable _) h2 ▸ bind_of_ok (m := createPointVariable _) h3 ▸ rfl :
      (do let sv ← createVariable (Conv.frToFq p s); let Rv ← createPointVariable B.1; pure (sv, Rv)) c1 = .ok ((sv, R), c3)),
      bind_of_ok h4]
  have hdm : SDom vk ms sv R c4 := by
    refine ⟨?_, ?_⟩
    · intro v hv
      rcases List.mem_cons.1 hv with rfl | hv
      · exact (e3.trans e4).lt i2
      · exact i4 v hv
    · intro P hP
      simp only [List.mem_cons, List.not_mem_nil, or_false] at hP
      rcases hP with rfl | rfl
      · exact i1.ext ((e2.trans e3).trans e4)
      · exact i3.ext e4
  have wvk : pt c4.val vk = A.1 := (ptAt_ext ((e2.trans e3).trans e4) i1).trans v1
  have wR : pt c4.val R = B.1 := (ptAt_ext e4 i3).trans v3
  have ws : c4.val sv = Conv.frToFq p s := ((e3.trans e4).val sv i2).trans v2
  have hcast : ((c4.val sv).val : ZMod T.r) = s := by rw [ws, hsval, ZMod.natCast_zmod_val]
  have h := C54_verify_circuit hf hT ha hd G hG cof vk ms sv R
  rw [hflow]
  constructor
  · rintro ⟨c', hm, hck⟩
    obtain ⟨w1, w2, w3, -⟩ := h.wf c4 e4.wf hdm () c' hm
    obtain ⟨-, -, g⟩ := h.sound c4 e4.wf hdm () c' hm pi c'.val ((checkSat_ok w1 pi).1 hck)
    have hmsg : ms.map c'.val = msg := by
      rw [← v4]; exact List.map_congr_left fun v hv => w3 v (i4 v hv)
    have := g A B (by rw [pt_congr hdm w3 (by simp : vk ∈ [vk, R]), wvk])
      (by rw [pt_congr hdm w3 (by simp : R ∈ [vk, R]), wR])
    rw [hmsg, w3 sv (hdm.1 sv (by simp)), hcast] at this
    exact this
  · intro hq
    obtain ⟨u, c', hm, hck⟩ := h.honest c4 e4.wf hdm pi ((checkSat_ok e4.wf pi).2 hs4)
      ⟨by rw [ws, hsval]; exact hsfit, A, B, wvk, wR, by rw [v4, hcast]; exact hq⟩
    exact ⟨c', hm, hck⟩

/-- **C54, the flow (partial).** For every key not of small order, every message and every signature, over points of
the group: building the circuit for them and checking it succeeds if and only if the native verifier accepts. -/
theorem C54_flow_partial (hf : HashOk K f) (hT : Sizes T) (ha : E.a = T.a) (hd : E.d = T.d) (G : E.Pt)
    (hG : T.r • G = 0) (cof : ℕ) (A B : E.Pt) (msg : List (ZMod p)) (s : ZMod T.r)
    (hcof : mul A ((cof : ℕ) : ZMod T.r) ≠ 0) {c : Circ p} (hc : WF c) {pi : List (ZMod p)}
    (hch : checkSat c pi = .ok ()) :
    (∃ c', flow T G.1 K A.1 msg s B.1 c = .ok ((), c') ∧ checkSat c' pi = .ok ()) ↔
      verify (nativeParams T E G cof f) A msg ⟨s, B⟩ csIdSchnorr = .ok () := by
  rw [C54_flow_iff hf hT ha hd G hG cof A B msg s hc hch, verify_iff]
  exact ⟨fun h => ⟨hcof, h⟩, fun h => h.2⟩

/-- **C54, refuted**: a signature under the neutral key, computed without a secret, for which building and checking the
circuit succeeds and the native verifier fails; for every message and every `s`. -/
theorem C54_flow_counterexample (hf : HashOk K f) (hT : Sizes T) (ha : E.a = T.a) (hd : E.d = T.d) (G : E.Pt)
    (hG : T.r • G = 0) (cof : ℕ) (msg : List (ZMod p)) (s : ZMod T.r) {c : Circ p} (hc : WF c) {pi : List (ZMod p)}
    (hch : checkSat c pi = .ok ()) :
    (∃ c', flow T G.1 K (0, 1) msg s (s.val • G : E.Pt).1 c = .ok ((), c') ∧ checkSat c' pi = .ok ()) ∧
      verify (nativeParams T E G cof f) (0 : E.Pt) msg ⟨s, s.val • G⟩ csIdSchnorr = .error .smallOrder := by
  refine ⟨(C54_flow_iff hf hT ha hd G hG cof (0 : E.Pt) (s.val • G) msg s hc hch).2 ?_, by simp [verify, Schnorr.mul]⟩
  rw [equation_zero hT]
  rfl

/-! ## The curves in use -/

theorem smul_zero_of_proj {E : EdGroup (ZMod p)} (P : E.Pt) (n m : ℕ) (h : bitsBE (bitsOf n m) 0 = m)
    (h1 : (projMul E.a E.d (P.1.1, P.1.2, 1) (bitsOf n m) (0, 1, 1)).1 = 0)
    (h2 : (projMul E.a E.d (P.1.1, P.1.2, 1) (bitsOf n m) (0, 1, 1)).2.1 =
      (projMul E.a E.d (P.1.1, P.1.2, 1) (bitsOf n m) (0, 1, 1)).2.2) : m • P = 0 := by
  have g := Proj.mul (P := P) (S := (P.1.1, P.1.2, 1)) ⟨one_ne_zero, by simp, by simp⟩ (bitsOf n m) 0 (0, 1, 1)
    ⟨one_ne_zero, by rw [zero_nsmul, E.zero_val]; simp, by rw [zero_nsmul, E.zero_val]; simp⟩
  rw [h] at g
  obtain ⟨g0, g1, g2⟩ := g
  rw [h1] at g1
  rw [h2] at g2
  apply Subtype.ext
  refine Prod.ext ?_ ?_
  · exact ((mul_eq_zero.1 g1.symm).resolve_right g0)
  · exact mul_right_cancel₀ g0 (by rw [← g2, E.zero_val, one_mul])

theorem bn_order : edBn254.r • bnPt = 0 :=
  smul_zero_of_proj bnPt 251 _ (by decide +kernel) (by decide +kernel) (by decide +kernel)
theorem ed377_order : edBls377.r • ed377Pt = 0 :=
  smul_zero_of_proj ed377Pt 251 _ (by decide +kernel) (by decide +kernel) (by decide +kernel)
theorem ed381_order : edBls381.r • ed381Pt = 0 :=
  smul_zero_of_proj ed381Pt 252 _ (by decide +kernel) (by decide +kernel) (by decide +kernel)
theorem band_order : bandersnatch.r • bandPt = 0 :=
  smul_zero_of_proj bandPt 253 _ (by decide +kernel) (by decide +kernel) (by decide +kernel)

/-- the hypotheses of the theorems above -/
structure Setting (T : TE p) (E : EdGroup (ZMod p)) (G : E.Pt) (K : Consts) (f : Vec (ZMod p) → Vec (ZMod p)) :
    Prop where
  hash : HashOk K f
  sizes : Sizes T
  a : E.a = T.a
  d : E.d = T.d
  order : T.r • G = 0

theorem perm_exists (I : Rescue.Instance) (hI : I ∈ Rescue.shipped) :
    ∃ f : Vec (ZMod I.p) → Vec (ZMod I.p), HashOk I.K f := by
  have := Fact.mk (Rescue.shipped_prime I hI)
  obtain ⟨f, -, hf⟩ := Rescue.C38_round_keys_bijective (Rescue.C38_shipped_good I hI)
    ((Rescue.Permutation.default I.K).roundKeys) (by
      show ((I.K.permRoundKeys.map _).length) = _
      rw [List.length_map, (shipped_keys I hI).1]; rfl)
  exact ⟨f, C69_shipped_hash_ok I hI f hf⟩

/-- **C54, the shipped curves.** The hypotheses hold for the four curves with the generators of arkworks and the
shipped Rescue constants. -/
theorem C54_settings :
    (∃ f, Setting edBn254 edBn254G bnPt Rescue.ed254 f) ∧ (∃ f, Setting edBls377 edBls377G ed377Pt Rescue.ed377 f) ∧
    (∃ f, Setting edBls381 edBls381G ed381Pt Rescue.ed381 f) ∧
    (∃ f, Setting bandersnatch bandersnatchG bandPt Rescue.ed381 f) := by
  obtain ⟨s1, s2, s3, s4⟩ := C54_sizes
  obtain ⟨f1, h1⟩ := perm_exists ⟨Rescue.p_ed254, Rescue.ed254⟩ (by simp [Rescue.shipped])
  obtain ⟨f2, h2⟩ := perm_exists ⟨Rescue.p_ed377, Rescue.ed377⟩ (by simp [Rescue.shipped])
  obtain ⟨f3, h3⟩ := perm_exists ⟨Rescue.p_ed381, Rescue.ed381⟩ (by simp [Rescue.shipped])
  exact ⟨⟨f1, h1, s1, rfl, rfl, bn_order⟩, ⟨f2, h2, s2, rfl, rfl, ed377_order⟩, ⟨f3, h3, s3, rfl, rfl, ed381_order⟩,
    ⟨f3, h3, s4, rfl, rfl, band_order⟩⟩

/-- **C54, honest signatures.** For a curve whose generator has prime order: the circuit built for a signature made by
the native `sign` with a non-zero key is accepted. -/
theorem C54_honest {G : E.Pt} (h : Setting T E G K f) (cof : ℕ)
    (hgood : Schnorr.GoodCurve (nativeParams T E G cof f)) (sk : ZMod T.r) (hsk : sk ≠ 0) (msg : List (ZMod p))
    {c : Circ p} (hc : WF c) {pi : List (ZMod p)} (hch : checkSat c pi = .ok ()) :
    ∃ sig, sign (nativeParams T E G cof f) (Schnorr.generateWithSignKey (nativeParams T E G cof f) sk) msg csIdSchnorr
        = .ok sig ∧
      ∃ c', flow T G.1 K (sk.val • G : E.Pt).1 msg sig.s sig.R.1 c = .ok ((), c') ∧ checkSat c' pi = .ok () := by
  obtain ⟨sig, h1, h2⟩ := Schnorr.C53_honest_accepted (nativeParams T E G cof f) hgood h.sizes.smaller sk hsk msg csIdSchnorr
  refine ⟨sig, h1, ?_⟩
  have h3 := (verify_iff (nativeParams T E G cof f) _ msg sig.s sig.R).1 h2
  exact (C54_flow_iff h.hash h.sizes h.a h.d G h.order cof _ sig.R msg sig.s hc hch).2 h3.2

/-- the generator of `ed_on_bls12_377` has prime order, and the cofactor is 4 -/
theorem good377 (f : Vec (ZMod Rescue.p_ed377) → Vec (ZMod Rescue.p_ed377)) :
    Schnorr.GoodCurve (nativeParams edBls377 edBls377G ed377Pt 4 f) := by
  have hp : Nat.Prime edBls377.r := Fields.prime_fr_ed377
  have := Fact.mk hp
  refine ⟨hp, ?_, ?_⟩
  · refine addOrderOf_eq_prime ed377_order ?_
    intro h
    have h1 : ed377Pt.1 = (0, 1) := congrArg Subtype.val h
    exact absurd (congrArg Prod.fst h1) (by decide +kernel)
  · show ¬ edBls377.r ∣ 4
    decide +kernel

/-! ## Examples -/

-- honest signatures on ed_on_bls12_377 are accepted, from the empty circuit
example : ∃ f, Setting edBls377 edBls377G ed377Pt Rescue.ed377 f ∧
    ∃ sig, sign (nativeParams edBls377 edBls377G ed377Pt 4 f)
        (Schnorr.generateWithSignKey (nativeParams edBls377 edBls377G ed377Pt 4 f) 12345) [1, 2, 3, 4] csIdSchnorr = .ok sig ∧
      ∃ c', flow edBls377 ed377Pt.1 Rescue.ed377 ((12345 : ZMod edBls377.r).val • ed377Pt : edBls377G.Pt).1 [1, 2, 3, 4]
        sig.s sig.R.1 (Circ.new _ none) = .ok ((), c') ∧ checkSat c' [] = .ok () := by
  obtain ⟨-, ⟨f, h⟩, -⟩ := C54_settings
  exact ⟨f, h, C54_honest h 4 (good377 f) 12345 (by decide +kernel) [1, 2, 3, 4] (wf_new none) (by decide +kernel)⟩

-- the forgery under the neutral key
example : ∃ f, Setting edBn254 edBn254G bnPt Rescue.ed254 f ∧
    (∃ c', flow edBn254 bnPt.1 Rescue.ed254 (0, 1) [1, 2, 3] 7 ((7 : ZMod edBn254.r).val • bnPt : edBn254G.Pt).1
      (Circ.new _ none) = .ok ((), c') ∧ checkSat c' [] = .ok ()) := by
  obtain ⟨⟨f, h⟩, -⟩ := C54_settings
  exact ⟨f, h, (C54_flow_counterexample h.hash h.sizes h.a h.d bnPt h.order 8 [1, 2, 3] 7 (wf_new none) (by decide +kernel)).1⟩

-- a key that is not of small order
example : mul ed377Pt ((4 : ℕ) : ZMod edBls377.r) ≠ 0 := by
  have := Fact.mk Fields.prime_fr_ed377
  rw [show ed377Pt = (nativeParams edBls377 edBls377G ed377Pt 4 id).gen from rfl, Ne,
    Schnorr.mul_gen_eq_zero (good377 id)]
  decide +kernel

-- there is room for an alias of every small response
example : (5 : ℕ) + edBls381.r < 2 ^ fixedBits edBls381 ∧ (5 : ℕ) + edBn254.r < 2 ^ fixedBits edBn254 := by
  decide +kernel

/-- the context string is the one of `signature/src/constants.rs:30` -/
example : csIdSchnorr = ("SCHNORR_WITH_RESCUE_HASH_v01".toList.map fun c => Fin.ofNat 256 c.toNat) := by decide

end Verif.Props.SchnorrCircuit
