import Verif.Props.TableBuilt
import Verif.Props.VerifierPointsEx

/-!
# C83, C91: proofs for the verifier circuit

`partial_verify_circuit` (`plonk/src/circuit/plonk_verifier/mod.rs`) checks a batch proof in a circuit. That circuit is proved
in turn by the prover of the crate.

* `C83_built`: the gadget turns a circuit that can be built into one that can be built, with the same public inputs.
* `C83_outer_partial`: a prover of the circuit that commits to wires which do not carry a batch proof and two points that the
  native verifier computes is rejected.
-/

set_option linter.unusedSectionVars false

namespace Verif.Props.VerifierPoints

open Verif.Circuit Verif.Circuit.VerifierPoly Verif.Circuit.TranscriptVar Verif.Circuit.VerifierAgg
open Verif.Props.VerifierCircuit Verif.Props.TranscriptCircuit Verif.Plonk Verif.Pcs Verif.Conv Verif.Props.Msm
open Verif.Props.EndToEnd Verif.Props.Verifier Verif.Props.Finalize
open Verif.Rescue (Vec Consts)
open Polynomial

variable {p Q k : ℕ} [hp : Fact p.Prime] [hQ : Fact Q.Prime] {G G2 : Type} [AddCommGroup G] [Module (ZMod Q) G] [DecidableEq G]
  {E : EdGroup (ZMod p)} {I : Info p} {T : TE p} {τ : G →+ E.Pt} {d : Domain (ZMod Q)} {vks : List (VkVar Q)}
  {pi : List (FpElemVar p)} {b : ProofVar p} {blind : ℕ} {VK : List (VKey (ZMod Q) G G2)} {B : BProof (ZMod Q) G} {K : Consts}
  {f : Vec (ZMod p) → Vec (ZMod p)} {newDom : ℕ → Option (Domain (ZMod Q))} {PI : List (ZMod Q)} {c : Circ p}

/-- **C83, the circuit can be built.** The verifier circuit for a batch (of which the circuit need not hold the values: `w` is any
assignment that shows one of the right size) is made with the calls of the builder, has the public inputs it had before, and
keeps the constraints. -/
theorem C83_built (S : Setup I k K f T E d (PI ++ PI).length VK.length) (hT : Turbo d (PI ++ PI).length VK B)
    (hd : newDom d.size = some d) (hb : Built c) (hc : Ready k c) (hroom : c.tableGateIds.length + tables VK B < p)
    (hE : Exist I c vks (List.replicate vks.length (pi ++ pi)) b) (hbl : blind < c.numVars) {g0 B0 : G}
    {r : (ℕ × ℕ) × (ℕ × ℕ)} {x : PcsVar p} {c' : Circ p}
    (hrun : VerifierAgg.partialVerify K T newDom (τ B0).1 (τ g0).1 vks pi b blind c = .ok ((r, x), c'))
    {w : ℕ → ZMod p} (hD : Data I τ w vks (pi ++ pi) b VK (PI ++ PI) B) :
    Built c' ∧ publicInput c' = publicInput c ∧ ∀ pin a, Sat c' pin a → Sat c pin a := by
  have hP := S.params
  have hroom : Room (tables VK B) c := ⟨Poe.tablesOK_of_built hb, hroom⟩
  rw [partialVerify_eq S hD hT hc hd] at hrun
  obtain ⟨ch, c0, h0, hrun⟩ := bind_ok hrun
  obtain ⟨x', c1, h1, hrun⟩ := bind_ok hrun
  obtain ⟨r', c2, h2, hrun⟩ := bind_ok hrun
  have hpure : ((r', x'), c2) = ((r, x), c') := Except.ok.inj hrun
  simp only [Prod.mk.injEq] at hpure
  obtain ⟨⟨rfl, rfl⟩, rfl⟩ := hpure
  obtain ⟨e0, ⟨y0, hch0⟩, hmsg⟩ := chal_run S hc hE h0
  have hc0 : Ctx False k c0 := hc.ctxF.ext e0
  have sp := rest_spec (H := False) S hD hT rfl rfl hc0 (Exist.ext hE e0) False.elim hch0 False.elim
  obtain ⟨e1, ⟨x1, -, x3, x4, x5, -⟩, -⟩ := sp.sound _ _ h1
  have e01 := e0.trans e1
  have hlen : x'.comm.length ≤ 25 * VK.length + B.quot.length := by
    rw [x5.length_eq]
    exact commVals'_length hT _ _ _ _
  have cs := combine_tspec (H := False) (N := 10 * VK.length) (b := b) (blind := blind) hP.par S.msm τ (g0 := g0) (B0 := B0) rfl rfl (hc0.ext e1)
    (room_tw hc hroom e01 (by unfold tables; omega)) (op := B.opening) (sh := B.shifted)
    ⟨PIn.ext e01 (hE.opens b.opening (by simp)), False.elim⟩ ⟨PIn.ext e01 (hE.opens b.shifted (by simp)), False.elim⟩ x5
    (by rw [x1]; exact hch0.ζ.ext e1) (by rw [x1]; exact hch0.u.ext e1) x3 x4 (e01.lt hbl) False.elim
  obtain ⟨e2, -, -⟩ := cs.sound _ _ h2
  have e := e01.text.trans e2
  exact ⟨e.built hb, Poe.publicInput_append hc.1 e.vars e.val e.rows e.pub, e.sat⟩

variable {S : ℕ} {root : ZMod p} {rnd : List (ZMod p)} {G' G2' GT : Type} [AddCommGroup G'] [Module (ZMod p) G'] [DecidableEq G']
  [AddCommGroup G2'] [Module (ZMod p) G2'] [DecidableEq G2'] [AddCommGroup GT] [Module (ZMod p) GT] [DecidableEq GT]

/-- what C83 says of an assignment that shows the batch `VK`, `PI`, `B`: the two points are those of the native verifier with
numbers `n` cut from the hashes of its transcript -/
def Checked (τ : G →+ E.Pt) (f : Vec (ZMod p) → Vec (ZMod p)) (T : TE p) (newDom : ℕ → Option (Domain (ZMod Q)))
    (VK : List (VKey (ZMod Q) G G2)) (PI : List (ZMod Q)) (B : BProof (ZMod Q) G) (B0 g0 : G) (blind : ℕ)
    (r : (ℕ × ℕ) × (ℕ × ℕ)) (a : ℕ → ZMod p) : Prop :=
  ∃ (h : Six (ZMod p)) (n : Six ℕ) (P1 P2 : G),
    native τ f VK (List.replicate VK.length (PI ++ PI)) B = chal (h.map (low Q)) ∧ Six.All₂ Cut h n ∧
    (a blind).val < 2 ^ windowBits (Nat.size T.r) ∧
    Plonk.partialVerify newDom (fun _ _ _ => chal (n.map (Nat.cast : ℕ → ZMod Q))) B0 g0 VK PI B (((a blind).val : ℕ) : ZMod Q) =
      .ok (P1, P2) ∧ ptAt a r.1 = (τ P1).1 ∧ ptAt a r.2 = (τ P2).1

/-- **C83, C91, proofs for the verifier circuit.** Consider the verifier circuit, made with any stored values. A prover that
commits to wire polynomials is rejected, except for few values of each challenge in turn, unless the wires carry an assignment
that satisfies the circuit before the gadget and, if it shows the batch (`Data`), has the points the native verifier computes
(`Checked`). As in `C83_sound_partial` this is for assignments with limbs in range and a challenge outside the domain. -/
theorem C83_outer_partial (St : Setup I k K f T E d (PI ++ PI).length VK.length) (hT : Turbo d (PI ++ PI).length VK B)
    (hk1 : 248 % k ≠ 0) (hk2 : 129 % k ≠ 0) (hk3 : k < 129)
    (hd : newDom d.size = some d) (hb : Built c) (hc : Ready k c) (hroom : c.tableGateIds.length + tables VK B < p)
    (hE : Exist I c vks (List.replicate vks.length (pi ++ pi)) b) (hbl : blind < c.numVars) {g0 B0 : G}
    {r : (ℕ × ℕ) × (ℕ × ℕ)} {x : PcsVar p} {c' : Circ p}
    (hrun : VerifierAgg.partialVerify K T newDom (τ B0).1 (τ g0).1 vks pi b blind c = .ok ((r, x), c'))
    {w0 : ℕ → ZMod p} (hD : Data I τ w0 vks (pi ++ pi) b VK (PI ++ PI) B)
    (hroot : IsPrimitiveRoot root (2 ^ S)) {F : FCirc p} (hF : finalize S root rnd c' = .ok F) (hsup : Supported c' F)
    {J : Inst (ZMod p)} (hJ : KeyOf F J) (w : ℕ → (ZMod p)[X]) (hw : ∀ j, Low F.dom (w j))
    (hno : ¬ ∃ a, Carries F w a ∧ Sat c J.inputs a ∧ (Data I τ a vks (pi ++ pi) b VK (PI ++ PI) B →
      (six x.ch).All (VerifierCircuit.Small I a) → (∀ s ∈ x.sums, VerifierCircuit.Small I a s) →
      vanishing d (value Q I a x.ch.ζ) ≠ 0 → Checked τ f T newDom VK PI B B0 g0 blind r a))
    (e : G' →ₗ[ZMod p] G2' →ₗ[ZMod p] GT) (hash : List (ZMod p) → ZMod p) (g : G') (h : G2') (he : e g h ≠ 0)
    {M : ℕ} (hM : F.dom.size + 2 ≤ M) :
    AllBut (4 * F.dom.size) fun τ => ∀ h1 h2 : ℕ → (ZMod p)[X], (∀ i, Low F.dom (h1 i)) → (∀ i, Low F.dom (h2 i)) →
    AllBut (12 * F.dom.size * p) fun βγ : ZMod p × ZMod p => ∀ z prod : ℕ → (ZMod p)[X], (∀ i, Low F.dom (z i)) →
      (∀ i, Low F.dom (prod i)) →
    AllBut (7 * 1) fun α => ∀ ts : List (ZMod p)[X], ts ≠ [] → (∀ t ∈ ts, Low F.dom t) →
    AllBut (7 * (F.dom.size + 2) + (F.dom.size + 2) * ts.length) fun ζ => ∀ cl : ℕ → Claims (ZMod p),
    AllBut (27 * 1) fun v => ∀ W W' : (ZMod p)[X], Low F.dom W → Low F.dom W' →
    AllBut 1 fun u => AllBut (F.dom.size + 3) fun s =>
      Rejected S root rnd e hash g h M 1 (fun _ => F) (fun _ => J) ⟨some τ, α, βγ.1, βγ.2, ζ, v, u⟩
        (proof (kzg s g) (withClaims 1 (fun _ => J) (fun _ => w) h1 h2 z prod cl) ts W W') s := by
  obtain ⟨hb', -, hold⟩ := C83_built St hT hd hb hc hroom hE hbl hrun hD
  have hBt : Batch S root rnd 1 F.dom (fun _ => c') (fun _ => F) (fun _ => J) :=
    ⟨one_ne_zero, hroot, fun _ _ => hb', fun _ _ => hF, fun _ _ => rfl, fun _ _ => hsup,
      fun _ _ => hJ, _, fun _ _ => rfl⟩
  refine C73_sound hBt (fun _ => w) (fun _ => hw) ⟨0, one_pos, ?_⟩ e hash g h he hM some (fun _ _ _ _ => rfl)
  rintro ⟨a, ha, hs⟩
  refine hno ⟨a, ha, hold _ a hs, fun hDa hch hsum hζ => ?_⟩
  exact C83_sound_partial St hT hk1 hk2 hk3 hd hc ⟨Poe.tablesOK_of_built hb, hroom⟩ hE hbl hrun hs hDa hch hsum hζ

open Verif.Curves in
open Verif.Rescue (p_fq377 p_ed377 fq377) in
/-- the circuit of `example_holds` (BLS12-377, the shipped Rescue permutation) can be built -/
example : ∃ (c c' : Circ p_fq377) (vks : List (VkVar p_ed377)) (pi : List (FpElemVar p_fq377)) (b : ProofVar p_fq377) (s : ℕ)
    (r : (ℕ × ℕ) × (ℕ × ℕ)) (x : PcsVar p_fq377),
    VerifierAgg.partialVerify fq377 g1Bls377 exDom (tau (3 • gen)).1 (tau gen).1 vks pi b s c = .ok ((r, x), c') ∧
    checkSat c' [] = .ok () ∧ Built c' := by
  obtain ⟨f, c, c', vks, pi, b, s, r, x, P1, P2, h1, h2, h3, h4, h5, h6, h7, h8, h9, h10, h11, h12, -⟩ := example_holds
  exact ⟨c, c', vks, pi, b, s, r, x, h7, h8,
    (C83_built (PI := [7]) (exSetup h1) exTurbo rfl h2 h4 h5.2 h6 h3 h7 h12).1⟩

end Verif.Props.VerifierPoints
