import Verif.Circuit.ElGamalGadget
import Verif.Props.ElGamal
import Verif.Props.Ecc
import Verif.Props.Msm
import Verif.Props.Glv
import Verif.Props.RescueCircuit
import Verif.Props.SchnorrCircuit

/-!
# C79: the ElGamal encryption circuit and the native encryption

`scheme K G` is the native scheme of `Verif/Sig/ElGamal.lean` over the points of a curve, with the generator `G` and
the Rescue permutation and cipher of the constants `K`.

* `C79_turbo`: in circuits without lookups every satisfying assignment holds the native ciphertext of the data
  variables under the key variable, with the randomness variable read modulo the group order; every assignment whose
  randomness fits extends; the honest builder succeeds on it.
* `C79_decrypts`: hence the owner of the key recovers exactly the data of the circuit from the ciphertext variables,
  whatever the prover does.
* `C79_lookup`, `C79_bandersnatch`: in circuits with lookups, exactly the pairs that can occur: the body may be
  encrypted under the multiple by another representative of the randomness than the one of the ephemeral key.
* `C79_wrong_message`: what the owner of the key then obtains.
* `C79_lookup_counterexample`: a satisfied circuit whose ciphertext does not decrypt to the data.
-/

set_option linter.unusedSectionVars false

namespace Verif.Props.ElGamalCircuit

open Verif.Circuit Verif.Props.Circuit Verif.Props.Ecc Verif.Curves Verif.Props.Msm
open Verif.Rescue (Vec Mat Consts PRP)
open Verif.ElGamal (Params Ciphertext KeyPair encrypt decrypt keyPairOf applyStream)

variable {p : ℕ} [Fact p.Prime]

open Classical in
/-- the native scheme -/
noncomputable def scheme (K : Consts) {E : EdGroup (ZMod p)} (G : E.Pt) : Params (ZMod p) E.Pt where
  gen := G
  coords := fun P => P.1
  ofCoords := fun x y => if h : E.mem (x, y) then some ⟨(x, y), h⟩ else none
  eval := evalList K
  prp := prpList K

/-- the assumptions: the field is odd, the constants are those of an implemented permutation, the bits of the
scalar fit into the field -/
structure Setup (p : ℕ) [Fact p.Prime] (K : Consts) (T : TE p) (E : EdGroup (ZMod p)) : Prop where
  two : p ≠ 2
  alpha : K.A = 5 ∨ K.A = 11
  good : Rescue.Good p K
  inj : K.keyInjection.length = 2 * Rescue.rounds
  keys : K.permRoundKeys.length = 2 * Rescue.rounds + 1
  a : E.a = T.a
  d : E.d = T.d
  pos : 0 < T.r
  bits : fixedBits T ≤ Nat.size p

variable {K : Consts} {T : TE p} {E : EdGroup (ZMod p)}

theorem stateOut (G : E.Pt) : ElGamal.StateOut (scheme K G) := fun _ _ => rfl

/-- the ciphertext body under the key derived from the point `S` -/
noncomputable def body (K : Consts) {E : EdGroup (ZMod p)} (G : E.Pt) (S : ZMod p × ZMod p) (msg : List (ZMod p)) :
    List (ZMod p) :=
  applyStream (scheme K G) (evalList K [S.1, S.2, 0, 0]) msg 0 .encrypt

/-- the variables exist -/
def EDom (pk : ℕ × ℕ) (data : List ℕ) (r : ℕ) (c : Circ p) : Prop := Dom (r :: data) [pk] c

theorem size_le_fixed (T : TE p) : Nat.size T.r ≤ fixedBits T := by unfold fixedBits; omega

/-- the native ciphertext, if the scalar is small or the key is in the group of order `r` -/
theorem encrypt_eq (h0 : 0 < T.r) (G A : E.Pt) (hG : T.r • G = 0) (k : ℕ) (hA : T.r • A = 0 ∨ k < T.r)
    (msg : List (ZMod p)) :
    encrypt (scheme K G) A (k : ZMod T.r) msg = ⟨k • G, body K G (k • A).1 msg⟩ := by
  have : NeZero T.r := ⟨h0.ne'⟩
  have red : ∀ X : E.Pt, T.r • X = 0 ∨ k < T.r → (k % T.r) • X = k • X := by
    rintro X (h | h)
    · conv_rhs => rw [← Nat.mod_add_div k T.r, add_nsmul, mul_nsmul, h, nsmul_zero, add_zero]
    · rw [Nat.mod_eq_of_lt h]
  unfold encrypt ElGamal.computeCiphertext keyPairOf ElGamal.mul
  simp only [ZMod.val_natCast]
  rw [red A hA]
  have : (scheme K G).gen = G := rfl
  rw [this, red G (Or.inl hG)]
  rfl

/-! ## Circuits without lookups -/

theorem variableBase_rel (T : TE p) (s : ℕ) (base : ℕ × ℕ) (h : Nat.size T.r ≠ 0) :
    Rel (Glv.variableBaseScalarMul T s base) (Glv.variableBaseScalarMul T s base) := by
  unfold Glv.variableBaseScalarMul
  refine Rel.bind (Rel.checkVar _) fun _ => Rel.bind (checkPoint_rel _) fun _ => Rel.bind Rel.supportLookup fun l => ?_
  split
  · unfold Glv.glvMul
    exact Glv.glvMulOf_rel _ _ _ _ _ _ _
  · exact msmWithLength_rel T h rfl

theorem encrypt_rel (T : TE p) (G : ZMod p × ZMod p) (K : Consts) (pk : ℕ × ℕ) (data : List ℕ) (r : ℕ)
    (h : Nat.size T.r ≠ 0) : Rel (elgamalEncrypt T G K pk data r) (elgamalEncrypt T G K pk data r) :=
  Rel.bind (variableBase_rel T r pk h) fun _ => encryptRest_rel _ _ _ _ _ _

theorem variableBase_spec' (hp : p ≠ 2) (ha : E.a = T.a) (hd : E.d = T.d) (h0 : Nat.size T.r ≠ 0)
    (hbits : Nat.size T.r ≤ Nat.size p) (s : ℕ) (base : ℕ × ℕ) {c : Circ p} (hc : WF c) (hu : c.ultra = none)
    (hs : s < c.numVars) (hb : PIn c base) :
    Spec (Glv.variableBaseScalarMul T s base) c
      (E.mem (pt c.val base) ∧ (c.val s).val < 2 ^ Nat.size T.r) (fun v c' => PIn c' v)
      (fun v w => (w s).val < 2 ^ Nat.size T.r ∧ ∀ A : E.Pt, pt w base = A.1 → pt w v = ((w s).val • A).1) := by
  unfold Glv.variableBaseScalarMul
  refine Spec.of_eq (v := ()) (by unfold checkVar; rw [if_neg (by omega)]) ?_
  refine Spec.of_eq (v := ()) (by
    have h1 : ¬ c.numVars ≤ base.1 := by have := hb.1; omega
    have h2 : ¬ c.numVars ≤ base.2 := by have := hb.2; omega
    simp [checkPoint, bind_eq, checkVar, h1, h2]) ?_
  refine Spec.of_eq (v := false) (by unfold supportLookup; rw [hu]; rfl) ?_
  simp only [Bool.false_and, Bool.false_eq_true, if_false]
  refine Spec.conseq hc (msm_no_lookup_spec hp ⟨ha, hd⟩ [base] [s] (Nat.size T.r) h0
    hbits rfl (by simp) hc hu ⟨by simpa using hs, fun b hb' => by
      have : b = base := by simpa using hb'
      rw [this]; exact hb⟩) ?_
    (fun _ _ _ h => h) ?_
  · rintro ⟨h1, h2⟩ - -
    exact ⟨by simpa using h1, by simpa using h2⟩
  · rintro v w - - ⟨h1, h2⟩
    refine ⟨h1 s (by simp), fun A hA => ?_⟩
    obtain ⟨Ps, h3, h4⟩ := h2 (by
      intro b hb'
      have : b = base := by simpa using hb'
      rw [this, hA]; exact A.2)
    rcases Ps with _ | ⟨P, _ | ⟨Q, Qs⟩⟩
    · simp at h3
    · have : P = A := Subtype.ext (by
        simp only [List.map_cons, List.map_nil, List.cons.injEq, and_true] at h3
        rw [← hA, h3])
      rw [h4, this]
      simp
    · simp at h3

theorem variableBase_spec (hS : Setup p K T E) (s : ℕ) (base : ℕ × ℕ) {c : Circ p} (hc : WF c) (hu : c.ultra = none)
    (hs : s < c.numVars) (hb : PIn c base) :
    Spec (Glv.variableBaseScalarMul T s base) c
      (E.mem (pt c.val base) ∧ (c.val s).val < 2 ^ Nat.size T.r) (fun v c' => PIn c' v)
      (fun v w => (w s).val < 2 ^ Nat.size T.r ∧ ∀ A : E.Pt, pt w base = A.1 → pt w v = ((w s).val • A).1) :=
  variableBase_spec' hS.two hS.a hS.d (Nat.size_pos.2 hS.pos).ne' ((size_le_fixed T).trans hS.bits) s base hc hu hs hb

/-- **C79, circuits without lookups.** Every satisfying assignment whose key is a point of the group holds the native
ciphertext of the data, with the randomness variable as scalar. Every assignment whose randomness has no more bits than
the group order extends, and the honest builder succeeds on it. -/
theorem C79_turbo (hS : Setup p K T E) (G : E.Pt) (hG : T.r • G = 0) (pk : ℕ × ℕ) (data : List ℕ) (r : ℕ) :
    Correct (elgamalEncrypt T G.1 K pk data r) (fun c => EDom pk data r c ∧ c.ultra = none)
      (fun w => E.mem (pt w pk) ∧ (w r).val < 2 ^ Nat.size T.r)
      (fun v w => (w r).val < 2 ^ Nat.size T.r ∧ ∀ A : E.Pt, pt w pk = A.1 → T.r • A = 0 ∨ (w r).val < T.r →
        (pt w v.1, v.2.map w) = ((encrypt (scheme K G) A ((w r).val : ZMod T.r) (data.map w)).ephemeral.1,
          (encrypt (scheme K G) A ((w r).val : ZMod T.r) (data.map w)).data)) := by
  have h0 : Nat.size T.r ≠ 0 := (Nat.size_pos.2 hS.pos).ne'
  refine correct_of (encrypt_rel T G.1 K pk data r h0) (fun _ _ h => h) ?_ (fun c hc hdm => ?_)
  · rintro c w w' ⟨hdm, -⟩ h h1
    rw [pt_congr hdm h (by simp : pk ∈ [pk]), h r (hdm.1 r (by simp))]
    exact h1
  obtain ⟨hdm, hu⟩ := hdm
  have hr : r < c.numVars := hdm.1 r (by simp)
  have hpk : PIn c pk := hdm.2 pk (by simp)
  refine ⟨fun _ _ => True, ?_⟩
  unfold elgamalEncrypt
  refine Spec.bind (variableBase_spec hS r pk hc hu hr hpk) (fun h _ _ => h) hc ?_
  rintro sh c1 e1 hsh
  have hfb : 0 < fixedBits T := lt_of_lt_of_le (Nat.size_pos.2 hS.pos) (size_le_fixed T)
  refine Spec.conseq e1.wf (encryptRest_spec hS.two hS.alpha hS.good hS.inj hS.keys (T := T) (E := E) ⟨hS.a, hS.d⟩ hfb
    hS.bits (scheme K G) rfl rfl G e1.wf data r sh) ?_ (fun _ _ _ _ => trivial) ?_
  · rintro ⟨⟨-, h2⟩, -⟩ - -
    refine ⟨⟨hsh, fun v hv => e1.lt (hdm.1 v (by simp [hv])), e1.lt hr⟩, ?_⟩
    rw [e1.val r hr]
    exact lt_of_lt_of_le h2 (Nat.pow_le_pow_right (by norm_num) (size_le_fixed T))
  · rintro v w - - ⟨-, h2, h3⟩ ⟨h4, h5⟩
    refine ⟨h4, fun A hA hor => ?_⟩
    rw [encrypt_eq hS.pos G A hG _ hor]
    have h6 : w sh.1 = ((w r).val • A).1.1 ∧ w sh.2 = ((w r).val • A).1.2 := by
      have := h5 A hA
      exact ⟨congrArg Prod.fst this, congrArg Prod.snd this⟩
    refine Prod.ext h2 ?_
    show v.2.map w = body K G _ _
    rw [h3, h6.1, h6.2]
    rfl

/-- **C79, the owner of the key recovers the data.** In circuits without lookups, for a key variable holding the public
key of `dec`: whatever satisfying assignment the prover chooses, the ciphertext variables hold a ciphertext, and
decrypting it with `dec` gives the values of the data variables. -/
theorem C79_decrypts (hS : Setup p K T E) (G : E.Pt) (hG : T.r • G = 0) (dec : ZMod T.r) (pk : ℕ × ℕ)
    (data : List ℕ) (r : ℕ) {c : Circ p} (hc : WF c) (hdm : EDom pk data r c) (hu : c.ultra = none)
    {v : (ℕ × ℕ) × List ℕ} {c' : Circ p} (hm : elgamalEncrypt T G.1 K pk data r c = .ok (v, c'))
    {pi : List (ZMod p)} {w : ℕ → ZMod p} (hw : Sat c' pi w)
    (hA : pt w pk = (keyPairOf (scheme K G) dec).enc.1) :
    ∃ C : Ciphertext (ZMod p) E.Pt, C.ephemeral.1 = pt w v.1 ∧ C.data = v.2.map w ∧
      decrypt (scheme K G) (keyPairOf (scheme K G) dec) C = data.map w := by
  have hor : T.r • (keyPairOf (scheme K G) dec).enc = 0 := by
    show T.r • (dec.val • G) = 0
    rw [← mul_nsmul, mul_comm, mul_nsmul, hG, nsmul_zero]
  obtain ⟨-, -, h⟩ := (C79_turbo hS G hG pk data r).sound c hc ⟨hdm, hu⟩ v c' hm pi w hw
  have h1 := h _ hA (Or.inl hor)
  exact ⟨_, (congrArg Prod.fst h1).symm, (congrArg Prod.snd h1).symm,
    ElGamal.C56_decrypt_encrypt (scheme K G) (stateOut G) dec _ _⟩

/-! ## Circuits with lookups -/

/-- a multiplication followed by the rest of the encryption -/
theorem then_encrypt (hS : Setup p K T E) (G : E.Pt) (data : List ℕ) (r : ℕ) {k : ℕ} {m : Build p (ℕ × ℕ)}
    {dom : Circ p → Prop} {pre : (ℕ → ZMod p) → Prop} {rel : (ℕ → ZMod p) → ZMod p × ZMod p → Prop}
    {hon : (ℕ → ZMod p) → Prop} {res : (ℕ → ZMod p) → ZMod p × ZMod p → Prop}
    (h : TableExact k m dom pre (fun w v => pt w v) rel hon res) (hrel : Rel m m)
    (hin : ∀ c, WF c → TablesOK c → c.tableGateIds.length + k < p → dom c → ∀ v c', m c = .ok (v, c') → PIn c' v) :
    TableExact k (m >>= fun sh => encryptRest T G.1 K data r sh)
      (fun c => dom c ∧ ∀ v ∈ r :: data, v < c.numVars) pre (fun w v => (pt w v.1, v.2.map w))
      (fun w y => (w r).val < 2 ^ fixedBits T ∧ ∃ S, rel w S ∧ y = (((w r).val • G).1, body K G S (data.map w)))
      (fun w => hon w ∧ (w r).val < 2 ^ fixedBits T)
      (fun w y => ∃ S, res w S ∧ y = (((w r).val • G).1, body K G S (data.map w))) := by
  have hfb : 0 < fixedBits T := lt_of_lt_of_le (Nat.size_pos.2 hS.pos) (size_le_fixed T)
  have hsp : ∀ (sh : ℕ × ℕ) {c1 : Circ p} (_ : WF c1), _ := fun sh c1 hc1 =>
    encryptRest_spec hS.two hS.alpha hS.good hS.inj hS.keys (T := T) (E := E) ⟨hS.a, hS.d⟩ hfb
      hS.bits (scheme K G) rfl rfl G hc1 data r sh
  have hmap : ∀ {c : Circ p} {w w' : ℕ → ZMod p}, (∀ v ∈ r :: data, v < c.numVars) →
      (∀ i, i < c.numVars → w' i = w i) → w' r = w r ∧ data.map w' = data.map w := fun hd ha =>
    ⟨ha r (hd r (by simp)), List.map_congr_left fun v hv => ha v (hd v (by simp [hv]))⟩
  refine ⟨?_, ?_, ?_, ?_, ?_, ?_⟩
  · rintro c hc ht hr ⟨hd, hv⟩ v c' hm
    obtain ⟨sh, c1, h1, h2⟩ := bind_ok hm
    obtain ⟨g1, g2, g3, g4, g5, g6⟩ := h.wf c hc ht hr hd sh c1 h1
    obtain ⟨e, -, -⟩ := (hsp sh g1).sound v c' h2
    exact ⟨e.wf, e.text.tables g2, g3.trans e.vars, fun i hi => (e.val i (hi.trans_le g3)).trans (g4 i hi),
      e.ultra.trans g5, by have := e.text.count; omega⟩
  · rintro c hc ht hr ⟨hd, hv⟩ v c' hm pi w hw
    obtain ⟨sh, c1, h1, h2⟩ := bind_ok hm
    obtain ⟨g1, -⟩ := h.wf c hc ht hr hd sh c1 h1
    obtain ⟨e, -, -⟩ := (hsp sh g1).sound v c' h2
    exact h.old c hc ht hr hd sh c1 h1 pi w (e.sat pi w hw)
  · rintro c hc ht hr ⟨hd, hv⟩ v c' hm
    obtain ⟨sh, c1, h1, h2⟩ := bind_ok hm
    obtain ⟨g1, -⟩ := h.wf c hc ht hr hd sh c1 h1
    obtain ⟨e, -, -⟩ := (hsp sh g1).sound v c' h2
    obtain ⟨⟨t, b1⟩, b2, b3⟩ := h.frame c hc ht hr hd sh c1 h1
    obtain ⟨t', b4⟩ := e.text.rows
    exact ⟨⟨t ++ t', by rw [b4, b1, List.append_assoc]⟩, e.text.pub.trans b2, fun g => e.text.built (b3 g)⟩
  · rintro c hc ht hr ⟨hd, hv⟩ v c' hm pi w hw hp y
    obtain ⟨sh, c1, h1, h2⟩ := bind_ok hm
    obtain ⟨g1, g2, g3, g4, g5, g6⟩ := h.wf c hc ht hr hd sh c1 h1
    have hpin := hin c hc ht hr hd sh c1 h1
    constructor
    · rintro ⟨w', ha, hs', rfl⟩
      obtain ⟨e, -, R⟩ := (hsp sh g1).sound v c' h2
      obtain ⟨q1, q2, q3⟩ := R pi w' hs'
      obtain ⟨m1, m2⟩ := hmap hv ha
      rw [m1] at q1 q2
      rw [m2] at q3
      refine ⟨q1, pt w' sh, (h.exact c hc ht hr hd sh c1 h1 pi w hw hp _).1 ⟨w', ha, e.sat pi w' hs', rfl⟩, ?_⟩
      exact Prod.ext q2 q3
    · rintro ⟨hb, S, hS', rfl⟩
      obtain ⟨w1, a1, a2, a3⟩ := (h.exact c hc ht hr hd sh c1 h1 pi w hw hp S).2 hS'
      obtain ⟨m1, m2⟩ := hmap hv a1
      have hvals : ∀ i, i < c1.numVars → (Circ.assign c1 w1).val i = w1 i := fun i hi => assign_val c1 w1 hi
      obtain ⟨d', hsm, -, ⟨q1, q2, q3⟩, k1, k2⟩ := Spec.universal'' (encryptRest_rel T G.1 K data r sh) g1
        (hsp sh (assign_wf g1 w1)) ⟨⟨hpin, fun x hx => (hv x (by simp [hx])).trans_le g3,
          (hv r (by simp)).trans_le g3⟩, by
          rw [hvals r ((hv r (by simp)).trans_le g3), m1]; exact hb⟩ h2 a2
      have k3 : ∀ i, i < c.numVars → d'.val i = w i := fun i hi => (k1 i (hi.trans_le g3)).trans (a1 i hi)
      obtain ⟨n1, n2⟩ := hmap hv k3
      have n3 : d'.val sh.1 = S.1 ∧ d'.val sh.2 = S.2 := by
        rw [k1 _ hpin.1, k1 _ hpin.2, ← a3]
        exact ⟨rfl, rfl⟩
      refine ⟨d'.val, k3, k2, ?_⟩
      rw [n1] at q2
      rw [n2, n3.1, n3.2] at q3
      exact Prod.ext q2 q3
  · rintro c hc ht hr ⟨hd, hv⟩ pi hch hp
    obtain ⟨i1, i2⟩ := h.honest c hc ht hr hd pi hch hp
    refine ⟨⟨?_, ?_⟩, ?_⟩
    · rintro ⟨v, c', hm, hch'⟩
      obtain ⟨sh, c1, h1, h2⟩ := bind_ok hm
      obtain ⟨g1, g2, g3, g4, g5, g6⟩ := h.wf c hc ht hr hd sh c1 h1
      obtain ⟨e, -, R⟩ := (hsp sh g1).sound v c' h2
      have hs' := (checkSat_ok e.wf pi).1 hch'
      obtain ⟨q1, -⟩ := R pi _ hs'
      refine ⟨i1.1 ⟨sh, c1, h1, (checkSat_ok g1 pi).2 ?_⟩, ?_⟩
      · exact Sat.congr g1 (fun i hi => e.val i hi) (e.sat pi _ hs')
      · rw [e.val r ((hv r (by simp)).trans_le g3), g4 r (hv r (by simp))] at q1
        exact q1
    · rintro ⟨hh, hb⟩
      obtain ⟨sh, c1, h1, hc1⟩ := i1.2 hh
      obtain ⟨g1, g2, g3, g4, g5, g6⟩ := h.wf c hc ht hr hd sh c1 h1
      obtain ⟨v, c', h2, hs2⟩ := (hsp sh g1).complete ⟨⟨hin c hc ht hr hd sh c1 h1,
        fun x hx => (hv x (by simp [hx])).trans_le g3, (hv r (by simp)).trans_le g3⟩, by
          rw [g4 r (hv r (by simp))]; exact hb⟩ pi ((checkSat_ok g1 pi).1 hc1)
      obtain ⟨e, -, -⟩ := (hsp sh g1).sound v c' h2
      exact ⟨v, c', by rw [bind_of_ok h1]; exact h2, (checkSat_ok e.wf pi).2 hs2⟩
    · intro v c' hm hch'
      obtain ⟨sh, c1, h1, h2⟩ := bind_ok hm
      obtain ⟨g1, g2, g3, g4, g5, g6⟩ := h.wf c hc ht hr hd sh c1 h1
      have hpin := hin c hc ht hr hd sh c1 h1
      obtain ⟨e, -, R⟩ := (hsp sh g1).sound v c' h2
      have hs' := (checkSat_ok e.wf pi).1 hch'
      obtain ⟨-, q2, q3⟩ := R pi _ hs'
      have hc1 : checkSat c1 pi = .ok () :=
        (checkSat_ok g1 pi).2 (Sat.congr g1 (fun i hi => e.val i hi) (e.sat pi _ hs'))
      refine ⟨_, i2 sh c1 h1 hc1, ?_⟩
      have k3 : ∀ i, i < c.numVars → c'.val i = c.val i := fun i hi => (e.val i (hi.trans_le g3)).trans (g4 i hi)
      obtain ⟨n1, n2⟩ := hmap hv k3
      rw [n1] at q2
      rw [n2, e.val _ hpin.1, e.val _ hpin.2] at q3
      exact Prod.ext q2 q3
  · intro c d hcd v c' v' d' h1 h2
    exact (Rel.bind hrel fun sh => encryptRest_rel T G.1 K data r sh) c d hcd v c' v' d' h1 h2

/-- another builder that does the same on the circuits considered -/
theorem congr_run {k : ℕ} {α β : Type} {m m' : Build p α} {dom : Circ p → Prop} {pre : (ℕ → ZMod p) → Prop}
    {out : (ℕ → ZMod p) → α → β} {rel rel' : (ℕ → ZMod p) → β → Prop} {hon : (ℕ → ZMod p) → Prop}
    {res res' : (ℕ → ZMod p) → β → Prop} (h : TableExact k m dom pre out rel hon res)
    (he : ∀ c, dom c → m' c = m c) (hrel : Rel m' m') (h1 : ∀ w y, pre w → (rel w y ↔ rel' w y))
    (h2 : ∀ w y, res w y → res' w y) : TableExact k m' dom pre out rel' hon res' := by
  refine ⟨?_, ?_, ?_, ?_, ?_, fun c d hcd v c' v' d' a b => hrel c d hcd v c' v' d' a b⟩
  · intro c hc ht hr hd v c' hm
    rw [he c hd] at hm
    exact h.wf c hc ht hr hd v c' hm
  · intro c hc ht hr hd v c' hm
    rw [he c hd] at hm
    exact h.old c hc ht hr hd v c' hm
  · intro c hc ht hr hd v c' hm
    rw [he c hd] at hm
    exact h.frame c hc ht hr hd v c' hm
  · intro c hc ht hr hd v c' hm pi w hw hp y
    rw [he c hd] at hm
    rw [h.exact c hc ht hr hd v c' hm pi w hw hp y, h1 w y hp]
  · intro c hc ht hr hd pi hch hp
    obtain ⟨i1, i2⟩ := h.honest c hc ht hr hd pi hch hp
    rw [he c hd]
    exact ⟨i1, fun v c' hm hck => h2 _ _ (i2 v c' hm hck)⟩

theorem isMsm_one {w : ℕ → ZMod p} {base : ℕ × ℕ} {n : ℕ} {S : ZMod p × ZMod p} :
    IsMsm E w [base] [n] S ↔ ∃ A : E.Pt, pt w base = A.1 ∧ S = (n • A).1 := by
  constructor
  · rintro ⟨Ps, h1, h2⟩
    rcases Ps with _ | ⟨P, _ | ⟨Q, Qs⟩⟩
    · simp at h1
    · exact ⟨P, by simpa using h1, by simpa using h2⟩
    · simp at h1
  · rintro ⟨A, h1, h2⟩
    exact ⟨[A], by simp [h1], by simp [h2]⟩

theorem isMsm_all {w : ℕ → ZMod p} {base : ℕ × ℕ} (hb : E.mem (pt w base)) {n : ℕ} {S : ZMod p × ZMod p} :
    IsMsm E w [base] [n] S ↔ ∀ A : E.Pt, pt w base = A.1 → S = (n • A).1 := by
  rw [isMsm_one]
  constructor
  · rintro ⟨A, h1, h2⟩ B hB
    have : B = A := Subtype.ext (hB.symm.trans h1)
    rw [this, h2]
  · intro h
    exact ⟨⟨_, hb⟩, rfl, h _ rfl⟩

/-- `variable_base_scalar_mul` in circuits with lookups, other sizes than those of Bandersnatch -/
theorem variableBase_run {T : TE p} {s : ℕ} {base : ℕ × ℕ} (hsz : ¬ (Nat.size T.r = 253 ∧ Nat.size p = 255))
    {c : Circ p} (h : LDom [base] [s] c) :
    Glv.variableBaseScalarMul T s base c = msmWithLength T [base] [s] (Nat.size T.r) c := by
  have hs : s < c.numVars := h.1.1 s (by simp)
  have hb : PIn c base := h.1.2 base (by simp)
  unfold Glv.variableBaseScalarMul
  rw [bind_of_ok (m := checkVar s) (u := ()) (c1 := c) (by unfold checkVar; rw [if_neg (by omega)]),
    bind_of_ok (m := checkPoint base) (u := ()) (c1 := c) (by
      have h1 : ¬ c.numVars ≤ base.1 := by have := hb.1; omega
      have h2 : ¬ c.numVars ≤ base.2 := by have := hb.2; omega
      simp [checkPoint, bind_eq, checkVar, h1, h2])]
  obtain ⟨u, hu⟩ := Option.ne_none_iff_exists'.1 h.2
  rw [bind_of_ok (m := supportLookup) (u := true) (c1 := c) (by unfold supportLookup; rw [hu]; rfl)]
  have : (true && Nat.size T.r == 253 && Nat.size p == 255) = false := by
    rw [Bool.true_and, Bool.eq_false_iff]
    intro h
    simp only [Bool.and_eq_true, beq_iff_eq] at h
    exact hsz h
  rw [this]
  rfl

theorem variableBase_exact (hS : Setup p K T E) (hsz : ¬ (Nat.size T.r = 253 ∧ Nat.size p = 255))
    (hcp : 2 ^ msmWindow (Nat.size T.r) < p) (hcr : 2 ^ msmWindow (Nat.size T.r) ≤ T.r) (s : ℕ) (base : ℕ × ℕ) :
    TableExact 1 (Glv.variableBaseScalarMul T s base) (LDom [base] [s]) (fun w => E.mem (pt w base))
      (fun w v => pt w v)
      (fun w S => ∃ n : ℕ, (n : ZMod p) = w s ∧ n < 2 ^ windowBits (Nat.size T.r) ∧
        ∀ A : E.Pt, pt w base = A.1 → S = (n • A).1)
      (fun w => (w s).val < 2 ^ windowBits (Nat.size T.r))
      (fun w S => ∀ A : E.Pt, pt w base = A.1 → S = ((w s).val • A).1) := by
  have h0 : Nat.size T.r ≠ 0 := (Nat.size_pos.2 hS.pos).ne'
  have h := C34_lookup T E hS.a hS.d [base] [s] (Nat.size T.r) h0 rfl (by simp) hcp hcr
  have h' := congr_run (m' := Glv.variableBaseScalarMul T s base) h (fun c hd => variableBase_run hsz hd)
    (variableBase_rel T s base h0)
    (rel' := fun w S => ∃ n : ℕ, (n : ZMod p) = w s ∧ n < 2 ^ windowBits (Nat.size T.r) ∧
      ∀ A : E.Pt, pt w base = A.1 → S = (n • A).1)
    (res' := fun w S => ∀ A : E.Pt, pt w base = A.1 → S = ((w s).val • A).1) ?_ ?_
  · have e1 : (fun w : ℕ → ZMod p => ∀ b ∈ [base], E.mem (pt w b)) = fun w => E.mem (pt w base) := by
      funext w; simp
    have e2 : (fun w : ℕ → ZMod p => ∀ x ∈ [s], (w x).val < 2 ^ windowBits (Nat.size T.r)) =
        fun w => (w s).val < 2 ^ windowBits (Nat.size T.r) := by
      funext w; simp
    rw [e1, e2] at h'
    exact h'
  · intro w S hp
    have hb : E.mem (pt w base) := hp base (by simp)
    constructor
    · rintro ⟨ns, g1, g2, g3⟩
      rcases ns with _ | ⟨n, _ | ⟨n', ns⟩⟩
      · simp at g1
      · exact ⟨n, by simpa using g1, g2 n (by simp), (isMsm_all hb).1 g3⟩
      · simp at g1
    · rintro ⟨n, g1, g2, g3⟩
      exact ⟨[n], by simp [g1], by simpa using g2, (isMsm_all hb).2 g3⟩
  · intro w S h A hA
    have hb : E.mem (pt w base) := by rw [hA]; exact A.2
    exact (isMsm_all hb).1 h A hA

theorem list_dom (pk : ℕ × ℕ) (data : List ℕ) (r : ℕ) (c : Circ p) :
    (LDom [pk] [r] c ∧ ∀ v ∈ r :: data, v < c.numVars) ↔ EDom pk data r c ∧ c.ultra ≠ none := by
  constructor
  · rintro ⟨⟨⟨h1, h2⟩, h3⟩, h4⟩
    exact ⟨⟨h4, h2⟩, h3⟩
  · rintro ⟨⟨h1, h2⟩, h3⟩
    exact ⟨⟨⟨fun v hv => h1 v (by simp at hv; simp [hv]), h2⟩, h3⟩, h1⟩

/-- **C79, circuits with lookups, exactly.** Let the key be a point of the group. The ciphertexts that occur together
with given values of the key, the data and the randomness `k` are those with the ephemeral key `k G` and the data
encrypted under `n A`, for all `n < 2 ^ windowBits` that are equal to `k` in the native field. The honest builder takes
`n = k`, and succeeds if and only if `k` fits. -/
theorem C79_lookup (hS : Setup p K T E) (hsz : ¬ (Nat.size T.r = 253 ∧ Nat.size p = 255))
    (hcp : 2 ^ msmWindow (Nat.size T.r) < p) (hcr : 2 ^ msmWindow (Nat.size T.r) ≤ T.r) (G : E.Pt) (pk : ℕ × ℕ)
    (data : List ℕ) (r : ℕ) :
    TableExact 1 (elgamalEncrypt T G.1 K pk data r) (fun c => EDom pk data r c ∧ c.ultra ≠ none)
      (fun w => E.mem (pt w pk)) (fun w v => (pt w v.1, v.2.map w))
      (fun w y => (w r).val < 2 ^ fixedBits T ∧ ∃ n : ℕ, (n : ZMod p) = w r ∧ n < 2 ^ windowBits (Nat.size T.r) ∧
        ∀ A : E.Pt, pt w pk = A.1 → y = (((w r).val • G).1, body K G (n • A).1 (data.map w)))
      (fun w => (w r).val < 2 ^ windowBits (Nat.size T.r) ∧ (w r).val < 2 ^ fixedBits T)
      (fun w y => ∀ A : E.Pt, pt w pk = A.1 → y = (((w r).val • G).1, body K G ((w r).val • A).1 (data.map w))) := by
  have h0 : Nat.size T.r ≠ 0 := (Nat.size_pos.2 hS.pos).ne'
  have h := then_encrypt hS G data r (variableBase_exact hS hsz hcp hcr r pk) (variableBase_rel T r pk h0) (by
    intro c hc ht hr hd v c' hm
    rw [variableBase_run hsz hd] at hm
    exact msm_lookup_in (bases := [pk]) (scalars := [r]) ⟨hS.a, hS.d⟩ h0 rfl (by simp) hcp hcr ⟨hc, ht, hd.2, hr⟩ hd hm)
  have e : (fun c : Circ p => LDom [pk] [r] c ∧ ∀ v ∈ r :: data, v < c.numVars) =
      fun c => EDom pk data r c ∧ c.ultra ≠ none := by
    funext c; exact propext (list_dom pk data r c)
  rw [e] at h
  refine congr_run h (fun c _ => rfl) (encrypt_rel T G.1 K pk data r h0) ?_ ?_
  · intro w y hp
    refine and_congr_right fun _ => ?_
    constructor
    · rintro ⟨S, ⟨n, g1, g2, g3⟩, rfl⟩
      exact ⟨n, g1, g2, fun A hA => by rw [g3 A hA]⟩
    · rintro ⟨n, g1, g2, g3⟩
      obtain ⟨P, hP⟩ : ∃ P : E.Pt, pt w pk = P.1 := ⟨⟨_, hp⟩, rfl⟩
      refine ⟨(n • P).1, ⟨n, g1, g2, fun A hA => ?_⟩, g3 P hP⟩
      have : P = A := Subtype.ext (hP.symm.trans hA)
      rw [this]
  · rintro w y ⟨S, g1, rfl⟩ A hA
    rw [g1 A hA]

/-- **C79, Bandersnatch in circuits with lookups, exactly.** As `C79_lookup`, with the numbers that the decomposition of
`glv.rs` accepts for the randomness. -/
theorem C79_bandersnatch {K : Consts} (hS : Setup Rescue.p_ed381 K bandersnatch bandersnatchG) (G : bandersnatchG.Pt)
    (pk : ℕ × ℕ) (data : List ℕ) (r : ℕ) :
    TableExact 2 (elgamalEncrypt bandersnatch G.1 K pk data r)
      (fun c => Glv.GDom r pk c ∧ ∀ v ∈ r :: data, v < c.numVars)
      (fun w => ∃ P : bandersnatchG.Pt, pt w pk = P.1 ∧ Glv.Eigen P) (fun w v => (pt w v.1, v.2.map w))
      (fun w y => (w r).val < 2 ^ fixedBits bandersnatch ∧ ∃ k1 k2 pos, Glv.Accepts (w r) k1 k2 pos ∧
        ∀ A : bandersnatchG.Pt, pt w pk = A.1 →
          y = (((w r).val • G).1, body K G (Glv.number k1 k2 pos • A).1 (data.map w)))
      (fun w => Glv.HonestOK (w r).val ∧ (w r).val < 2 ^ fixedBits bandersnatch)
      (fun w y => ∀ A : bandersnatchG.Pt, pt w pk = A.1 →
        y = (((w r).val • G).1, body K G ((w r).val • A).1 (data.map w))) := by
  have h0 : Nat.size bandersnatch.r ≠ 0 := by decide +kernel
  have h1 := congr_run (m' := Glv.variableBaseScalarMul bandersnatch r pk) (Glv.C35_glv_exact r pk)
    (fun c hd => Glv.C35_variable_base r pk c hd) (variableBase_rel bandersnatch r pk h0) (fun _ _ _ => Iff.rfl)
    (fun _ _ h => h)
  have h := then_encrypt hS G data r h1 (variableBase_rel bandersnatch r pk h0) (by
    intro c hc ht hr hd v c' hm
    rw [Glv.C35_variable_base r pk c hd] at hm
    exact Glv.glvMul_in ⟨hc, ht, hd.2.1, hr⟩ hd hm)
  refine congr_run h (fun c _ => rfl) (encrypt_rel bandersnatch G.1 K pk data r h0) ?_ ?_
  · rintro w y ⟨P, hP, -⟩
    refine and_congr_right fun _ => ?_
    constructor
    · rintro ⟨S, ⟨k1, k2, pos, g1, g2⟩, rfl⟩
      exact ⟨k1, k2, pos, g1, fun A hA => by rw [g2 A hA]⟩
    · rintro ⟨k1, k2, pos, g1, g2⟩
      refine ⟨(Glv.number k1 k2 pos • P).1, ⟨k1, k2, pos, g1, fun A hA => ?_⟩, g2 P hP⟩
      have : P = A := Subtype.ext (hP.symm.trans hA)
      rw [this]
  · rintro w y ⟨S, g1, rfl⟩ A hA
    rw [g1 A hA]

/-- element `i` of the key stream of the key derived from the point `S` -/
def stream (K : Consts) (S : ZMod p × ZMod p) (i : ℕ) : ZMod p :=
  (prpList K (evalList K [S.1, S.2, 0, 0]) [((i / 4 : ℕ) : ZMod p), 0, 0, 0]).getD (i % 4) 0

/-- **C79, what is decrypted.** The ciphertext with the ephemeral key `k G` and the data encrypted under `n A`, for the
public key `A = dec G`, decrypts to the data plus the difference of the two key streams. Hence it decrypts to the data
if and only if the key streams of `n A` and `k A` agree at all positions of the data. -/
theorem C79_wrong_message (G : E.Pt) {q : ℕ} (dec : ZMod q) (k n : ℕ) (msg : List (ZMod p)) :
    decrypt (scheme K G) (keyPairOf (scheme K G) dec)
        ⟨k • G, body K G (n • (keyPairOf (scheme K G) dec).enc).1 msg⟩ =
      (List.range msg.length).map (fun i => msg.getD i 0 + (stream K (n • (keyPairOf (scheme K G) dec).enc).1 i -
        stream K (k • (keyPairOf (scheme K G) dec).enc).1 i)) := by
  set A := (keyPairOf (scheme K G) dec).enc with hA
  have hsh : ElGamal.mul (k • G) (keyPairOf (scheme K G) dec).dec = k • A := by
    show dec.val • (k • G) = k • (dec.val • G)
    rw [← mul_nsmul, ← mul_nsmul, mul_comm]
  have hks : ∀ S : ZMod p × ZMod p, ∀ i,
      ElGamal.keystream (scheme K G) (evalList K [S.1, S.2, 0, 0]) 0 i = stream K S i := by
    intro S i
    unfold ElGamal.keystream stream
    rw [zero_add]; rfl
  obtain ⟨l1, e1⟩ := ElGamal.C56_stream (scheme K G) (stateOut G) (evalList K [(n • A).1.1, (n • A).1.2, 0, 0]) msg 0
    .encrypt
  unfold decrypt
  simp only [hsh]
  have hev : (scheme K G).eval [((scheme K G).coords (k • A)).1, ((scheme K G).coords (k • A)).2, 0, 0] =
      evalList K [(k • A).1.1, (k • A).1.2, 0, 0] := rfl
  rw [hev]
  obtain ⟨l2, e2⟩ := ElGamal.C56_stream (scheme K G) (stateOut G) (evalList K [(k • A).1.1, (k • A).1.2, 0, 0])
    (body K G (n • A).1 msg) 0 .decrypt
  have lb : (body K G (n • A).1 msg).length = msg.length := l1
  apply List.ext_getElem?
  intro i
  by_cases hi : i < msg.length
  · rw [e2 i (by rw [lb]; exact hi)]
    have h3 : (body K G (n • A).1 msg).getD i 0 = msg.getD i 0 + stream K (n • A).1 i := by
      have := e1 i hi
      rw [List.getD_eq_getElem?_getD]
      show (applyStream _ _ _ _ _)[i]?.getD 0 = _
      rw [this, hks]; rfl
    rw [h3, hks, List.getElem?_map, List.getElem?_range hi]
    simp only [ElGamal.shift, Option.map_some, Option.some.injEq]
    ring
  · rw [List.getElem?_eq_none (by rw [l2, lb]; omega), List.getElem?_eq_none (by simp; omega)]

/-! ## The shipped curves -/

theorem setup_of (I : Rescue.Instance) (hI : I ∈ Rescue.shipped) [Fact I.p.Prime] {T : TE I.p} {E : EdGroup (ZMod I.p)}
    (hs : SchnorrCircuit.Sizes T) (ha : E.a = T.a) (hd : E.d = T.d) : Setup I.p I.K T E :=
  ⟨hs.two, Circuit.shipped_alpha I hI, Rescue.C38_shipped_good I hI, (Circuit.shipped_keys I hI).2,
    (Circuit.shipped_keys I hI).1, ha, hd, hs.pos, hs.fixed⟩

/-- **C79, the shipped curves.** The assumptions hold for the four curves with the shipped constants. -/
theorem C79_setups : Setup Rescue.p_ed254 Rescue.ed254 edBn254 edBn254G ∧
    Setup Rescue.p_ed377 Rescue.ed377 edBls377 edBls377G ∧ Setup Rescue.p_ed381 Rescue.ed381 edBls381 edBls381G ∧
    Setup Rescue.p_ed381 Rescue.ed381 bandersnatch bandersnatchG := by
  obtain ⟨s1, s2, s3, s4⟩ := SchnorrCircuit.C54_sizes
  exact ⟨setup_of ⟨Rescue.p_ed254, Rescue.ed254⟩ (by simp [Rescue.shipped]) s1 rfl rfl,
    setup_of ⟨Rescue.p_ed377, Rescue.ed377⟩ (by simp [Rescue.shipped]) s2 rfl rfl,
    setup_of ⟨Rescue.p_ed381, Rescue.ed381⟩ (by simp [Rescue.shipped]) s3 rfl rfl,
    setup_of ⟨Rescue.p_ed381, Rescue.ed381⟩ (by simp [Rescue.shipped]) s4 rfl rfl⟩

/-- the assumptions of `C79_lookup` on the sizes -/
def LookupSizes (T : TE p) : Prop :=
  ¬ (Nat.size T.r = 253 ∧ Nat.size p = 255) ∧ 2 ^ msmWindow (Nat.size T.r) < p ∧ 2 ^ msmWindow (Nat.size T.r) ≤ T.r

/-- **C79, circuits with lookups for the shipped curves.** They hold for the three curves other than Bandersnatch, and
on all of them there is a second representative of small randomness. -/
theorem C79_lookup_sizes : LookupSizes edBn254 ∧ LookupSizes edBls377 ∧ LookupSizes edBls381 ∧
    Rescue.p_ed254 < 2 ^ windowBits (Nat.size edBn254.r) ∧ Rescue.p_ed377 < 2 ^ windowBits (Nat.size edBls377.r) ∧
    Rescue.p_ed381 < 2 ^ windowBits (Nat.size edBls381.r) := by
  unfold LookupSizes
  refine ⟨?_, ?_, ?_, ?_, ?_, ?_⟩ <;> decide +kernel

/-- **C79, a second ciphertext.** Whenever the randomness is below `2 ^ windowBits - p`, the constraints have another
solution with the same key, data, randomness and ephemeral key, and the data encrypted under `(k + p) A`. -/
theorem C79_alias (hS : Setup p K T E) (hz : LookupSizes T) (G A : E.Pt) (pk : ℕ × ℕ) (data : List ℕ) (r : ℕ)
    {c : Circ p} (hc : WF c) (ht : TablesOK c) (hr : c.tableGateIds.length + 1 < p) (hdm : EDom pk data r c)
    (hu : c.ultra ≠ none) {v : (ℕ × ℕ) × List ℕ} {c' : Circ p}
    (hm : elgamalEncrypt T G.1 K pk data r c = .ok (v, c')) {pi : List (ZMod p)} {w : ℕ → ZMod p} (hw : Sat c pi w)
    (hA : pt w pk = A.1) (hf : (w r).val < 2 ^ fixedBits T)
    (hlt : (w r).val + p < 2 ^ windowBits (Nat.size T.r)) :
    ∃ w', (∀ i, i < c.numVars → w' i = w i) ∧ Sat c' pi w' ∧ pt w' v.1 = ((w r).val • G).1 ∧
      v.2.map w' = body K G (((w r).val + p) • A).1 (data.map w) := by
  have h := C79_lookup hS hz.1 hz.2.1 hz.2.2 G pk data r
  obtain ⟨w', g1, g2, g3⟩ := (h.exact c hc ht hr ⟨hdm, hu⟩ v c' hm pi w hw (by rw [hA]; exact A.2)
    (((w r).val • G).1, body K G (((w r).val + p) • A).1 (data.map w))).2
    ⟨hf, (w r).val + p, by simp, hlt, fun B hB => by rw [show B = A from Subtype.ext (hB.symm.trans hA)]⟩
  exact ⟨w', g1, g2, congrArg Prod.fst g3, congrArg Prod.snd g3⟩

/-! ## A wrong message -/

open Verif.Rescue (toyConsts)

theorem toy_good13 : Rescue.Good 13 toyConsts := by
  refine ⟨by decide, by decide, ?_⟩
  rw [Rescue.toMatrix_ofBytes]
  have := (Int.castRingHom (ZMod 13)).map_det (Matrix.of (Rescue.intMat toyConsts.mds))
  rw [Rescue.det_eq_det4] at this
  have h2 : (((Matrix.of (Rescue.intMat toyConsts.mds)).map (Int.cast : ℤ → ZMod 13))).det =
    ((Rescue.det4 (Rescue.intMat toyConsts.mds) : ℤ) : ZMod 13) := this.symm
  rw [h2]
  exact isUnit_iff_ne_zero.2 (by decide)

theorem setup13 : Setup 13 toyConsts K13 E13 :=
  ⟨by decide, Or.inl rfl, toy_good13, by decide, by decide, rfl, rfl, by decide, by decide +kernel⟩

theorem order13 : (8 : ℕ) • P13 = 0 := by
  have h2 : (P13 + P13).1 = (1, 0) := dbl13 (by unfold EdDef edZ; decide) (by unfold AddEqs edZ; decide)
  have h4 : ((P13 + P13) + (P13 + P13)).1 = (0, 12) :=
    dbl13 (by rw [h2]; unfold EdDef edZ; decide) (by rw [h2]; unfold AddEqs edZ; decide)
  have h8 : (((P13 + P13) + (P13 + P13)) + ((P13 + P13) + (P13 + P13))) = 0 := Subtype.ext
    ((dbl13 (by rw [h4]; unfold EdDef edZ; decide) (by rw [h4]; unfold AddEqs edZ; decide)).trans
      (show ((0, 1) : ZMod 13 × ZMod 13) = _ from rfl))
  rw [← h8]; abel

theorem alias13 : ((18 : ℕ) • P13).1 = (1, 0) := by
  have h2 : (P13 + P13).1 = (1, 0) := dbl13 (by unfold EdDef edZ; decide) (by unfold AddEqs edZ; decide)
  have e : (18 : ℕ) • P13 = P13 + P13 := by
    rw [show (18 : ℕ) = 8 + 8 + 2 from rfl, add_nsmul, add_nsmul, order13, two_nsmul, zero_add, zero_add]
  rw [e, h2]

theorem demoU13_tables : TablesOK demoU13 := ⟨(tablesOK_new (p := 13) (some 2)).rows⟩
theorem demoU13_check : checkSat demoU13 [] = .ok () := by decide +kernel

/-- **C79, refuted in circuits with lookups.** A circuit with the key `G` of the secret 1, the randomness 5 and the
message `[1]`. The honest witness is accepted. So is another one, with the same key, randomness and message, whose
ciphertext decrypts to `[3]`. -/
theorem C79_lookup_counterexample :
    ∃ v c' w, elgamalEncrypt K13 P13.1 toyConsts (2, 3) [4] 8 demoU13 = .ok (v, c') ∧ checkSat c' [] = .ok () ∧
      Sat c' [] w ∧ pt w (2, 3) = (keyPairOf (scheme toyConsts P13) (1 : ZMod 8)).enc.1 ∧ [4].map w = [1] ∧ w 8 = 5 ∧
      ∃ C : Ciphertext (ZMod 13) E13.Pt, C.ephemeral.1 = pt w v.1 ∧ C.data = v.2.map w ∧
        decrypt (scheme toyConsts P13) (keyPairOf (scheme toyConsts P13) (1 : ZMod 8)) C = [3] := by
  have hz : LookupSizes K13 := by unfold LookupSizes; refine ⟨?_, ?_, ?_⟩ <;> decide +kernel
  have h := C79_lookup setup13 hz.1 hz.2.1 hz.2.2 P13 (2, 3) [4] 8
  have hd : EDom (2, 3) [4] 8 demoU13 ∧ demoU13.ultra ≠ none := ⟨⟨by decide, by decide⟩, by decide⟩
  have hpt : pt demoU13.val (2, 3) = P13.1 := by decide
  obtain ⟨h1, -⟩ := h.honest demoU13 demoU13_wf demoU13_tables (by decide) hd [] demoU13_check (by rw [hpt]; exact P13.2)
  obtain ⟨v, c', hm, hs⟩ := h1.2 ⟨by decide +kernel, by decide +kernel⟩
  have hv8 : (demoU13.val 8).val = 5 := by decide
  obtain ⟨w, w1, w2, w3, w4⟩ := C79_alias setup13 hz P13 P13 (2, 3) [4] 8 demoU13_wf demoU13_tables (by decide) hd.1 hd.2
    hm ((checkSat_ok demoU13_wf []).1 demoU13_check) hpt (by decide +kernel) (by decide +kernel)
  have henc : (keyPairOf (scheme toyConsts P13) (1 : ZMod 8)).enc = P13 := by
    show (1 : ZMod 8).val • P13 = P13
    rw [show (1 : ZMod 8).val = 1 from rfl, one_nsmul]
  refine ⟨v, c', w, hm, hs, w2, ?_, ?_, ?_, ⟨5 • P13, v.2.map w⟩, ?_, rfl, ?_⟩
  · rw [henc, ← hpt]; unfold pt; rw [w1 2 (by decide), w1 3 (by decide)]
  · rw [List.map_singleton, w1 4 (by decide)]; decide
  · rw [w1 8 (by decide)]; decide
  · rw [w3, hv8]
  · rw [w4, hv8]
    have g := C79_wrong_message (K := toyConsts) P13 (1 : ZMod 8) 5 18 ([4].map demoU13.val)
    rw [henc, five13, alias13] at g
    rw [show (5 + 13) • P13 = 18 • P13 from rfl, alias13, g]
    decide +kernel

/-! ## Examples -/

-- the circuit without lookups for the same data: the ciphertext variables decrypt to the message
example : ∃ v c', elgamalEncrypt K13 P13.1 toyConsts (2, 3) [4] 8 demo13 = .ok (v, c') ∧ checkSat c' [] = .ok () ∧
    ∀ w, Sat c' [] w → (∀ i, i < 9 → w i = demo13.val i) → ∃ C : Ciphertext (ZMod 13) E13.Pt,
      C.ephemeral.1 = pt w v.1 ∧ C.data = v.2.map w ∧
      decrypt (scheme toyConsts P13) (keyPairOf (scheme toyConsts P13) (1 : ZMod 8)) C = [1] := by
  have hG : K13.r • P13 = 0 := order13
  have h := C79_turbo setup13 P13 hG (2, 3) [4] 8
  have hd : EDom (2, 3) [4] 8 demo13 ∧ demo13.ultra = none := ⟨⟨by decide, by decide⟩, rfl⟩
  have hpt : pt demo13.val (2, 3) = P13.1 := by decide
  obtain ⟨v, c', hm, hs⟩ := h.honest demo13 demo13_wf hd [] demo13_check ⟨by rw [hpt]; exact P13.2, by decide +kernel⟩
  refine ⟨v, c', hm, hs, fun w hw ha => ?_⟩
  have henc : (keyPairOf (scheme toyConsts P13) (1 : ZMod 8)).enc = P13 := by
    show (1 : ZMod 8).val • P13 = P13
    rw [show (1 : ZMod 8).val = 1 from rfl, one_nsmul]
  have := C79_decrypts setup13 P13 hG (1 : ZMod 8) (2, 3) [4] 8 demo13_wf hd.1 hd.2 hm hw (by
    refine Eq.trans ?_ (congrArg Subtype.val henc).symm
    rw [← hpt]; unfold pt; rw [ha 2 (by omega), ha 3 (by omega)])
  rw [show [4].map w = [1] by rw [List.map_singleton, ha 4 (by omega)]; decide] at this
  exact this

-- the assumptions of `C79_bandersnatch` can be met
example : Setup Rescue.p_ed381 Rescue.ed381 bandersnatch bandersnatchG := C79_setups.2.2.2

end Verif.Props.ElGamalCircuit
