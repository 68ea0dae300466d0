import Verif.Props.Msm
import Verif.Props.Poe

/-!
# C91: circuits made with the gadgets that use lookup tables

The gadgets with a specification `TableExact` (multi-scalar multiplication and `glv_mul` in circuits with lookups, the
encryption made with them) may append lookup tables.

* `C91_table_gadget`: such a gadget turns a circuit that can be built into one that can be built, with the same public inputs.
* `C91_table_key`: the keys of the circuit after the gadget do not depend on the values stored in it.
* `C91_table_accepted`: if the stored values are such that the gadget works, then proofs made for the circuit are accepted.
* `C91_table_sound`: a prover that commits to wires which do not carry values in the relation of the gadget is rejected.
-/

set_option linter.unusedSectionVars false

namespace Verif.Props.Poe

open Verif.Circuit Verif.Plonk Verif.Pcs Verif.Props.Circuit Verif.Props.Ecc Verif.Props.EndToEnd
open Verif.Props.Verifier Verif.Props.Finalize
open Polynomial

variable {p : ℕ} [Fact p.Prime]

theorem tablesOK_of_built {c : Circ p} (h : Built c) : TablesOK c := by
  induction h with
  | new ultra => exact tablesOK_new ultra
  | var c c' x v _ hv ih =>
    unfold createVariable at hv
    split at hv
    · cases hv
    · cases hv; exact ⟨ih.rows⟩
  | gate c c' w0 w1 w2 w3 w4 g _ hio hl h0 h1 h2 h3 h4 hc ih =>
    unfold insertGate at hc
    split at hc
    · cases hc
    · cases hc
      refine ⟨fun r hr hne => ?_⟩
      rcases List.mem_append.1 hr with hr | hr
      · exact ih.rows r hr hne
      · rw [List.mem_singleton.1 hr] at hne
        exact absurd hl hne
  | pub c c' v _ hv hc ih =>
    unfold setVariablePublic at hc
    split at hc
    · cases hc
    · cases hc
      refine ⟨fun r hr hne => ?_⟩
      rcases List.mem_append.1 hr with hr | hr
      · exact ih.rows r hr hne
      · rw [List.mem_singleton.1 hr] at hne
        exact absurd rfl hne
  | range c c' v _ hc ih =>
    unfold addRangeCheckVariable at hc
    split_ifs at hc; cases hc
    exact ⟨ih.rows⟩
  | table c c' lookups table hb hc ih =>
    have hl : (∀ x ∈ lookups, x.1 < c.numVars ∧ x.2.1 < c.numVars ∧ x.2.2 < c.numVars) ∧
        ∀ x ∈ table, x.1 < c.numVars ∧ x.2 < c.numVars := by
      have hc := hc
      unfold createTableAndLookupVariables at hc
      obtain ⟨_, c1, h1, hc⟩ := bind_ok hc
      obtain ⟨_, c2, h2, hc⟩ := bind_ok hc
      obtain ⟨rfl, h1⟩ := checkVars_ok h1
      obtain ⟨rfl, h2⟩ := checkVars_ok h2
      constructor
      · intro x hx
        refine ⟨h1 _ ?_, h1 _ ?_, h1 _ ?_⟩ <;>
          exact List.mem_flatMap.2 ⟨x, hx, by simp⟩
      · intro x hx
        refine ⟨h2 _ ?_, h2 _ ?_⟩ <;> exact List.mem_flatMap.2 ⟨x, hx, by simp⟩
    rw [createTable_eq hb.ok.wf hl.1 hl.2] at hc
    cases hc
    exact withTable_tablesOK ih _ _

theorem publicInput_append {c c' : Circ p} (hc : WF c) (hn : c.numVars ≤ c'.numVars)
    (hv : ∀ i, i < c.numVars → c'.val i = c.val i) (hr : ∃ t, c'.rows = c.rows ++ t) (hp : c'.pubIds = c.pubIds) :
    publicInput c' = publicInput c := by
  unfold publicInput
  rw [hp]
  apply mapM_except_congr
  intro g hg
  obtain ⟨r, h1, -⟩ := hc.pub g hg
  obtain ⟨t, h2⟩ := hr
  have hlt : g < c.rows.length := (List.getElem?_eq_some_iff.1 h1).1
  have h3 : c'.rows[g]? = some r := by rw [h2, List.getElem?_append_left hlt]; exact h1
  have h4 := (hc.wires r (List.mem_of_getElem? h1)).2.2.2.2
  unfold ioValue
  rw [h1, h3]
  simp only
  rw [if_neg (by omega), if_neg (by omega), hv _ h4]

section gadget
variable {α β : Type} {k : ℕ} {m : Build p α} {dom : Circ p → Prop} {pre : (ℕ → ZMod p) → Prop}
  {out : (ℕ → ZMod p) → α → β} {rel : (ℕ → ZMod p) → β → Prop} {hon : (ℕ → ZMod p) → Prop}
  {res : (ℕ → ZMod p) → β → Prop}

/-- **C91, gadgets with lookup tables.** From a circuit that can be built (with room for the numbers of the tables) such a gadget
makes a circuit that can be built, with the same public inputs. -/
theorem C91_table_gadget (h : TableExact k m dom pre out rel hon res) {c c' : Circ p} (hc : Built c)
    (hr : c.tableGateIds.length + k < p) (hd : dom c) {v : α} (hm : m c = .ok (v, c')) :
    Built c' ∧ publicInput c' = publicInput c := by
  obtain ⟨-, -, h3, h4, -, -⟩ := h.wf c hc.ok.wf (tablesOK_of_built hc) hr hd v c' hm
  obtain ⟨f1, f2, f3⟩ := h.frame c hc.ok.wf (tablesOK_of_built hc) hr hd v c' hm
  exact ⟨f3 hc, publicInput_append hc.ok.wf h3 h4 f1 f2⟩

variable {G G2 GT : Type} [AddCommGroup G] [Module (ZMod p) G] [DecidableEq G]
  [AddCommGroup G2] [Module (ZMod p) G2] [DecidableEq G2]
  [AddCommGroup GT] [Module (ZMod p) GT] [DecidableEq GT]

/-- **C91, keys with lookup tables.** The gadget called on circuits that differ in the stored values only returns the same
variables and leads to the same keys (or the same failure). -/
theorem C91_table_key (h : TableExact k m dom pre out rel hon res) {c d c' d' : Circ p} (hcd : c.shape = d.shape) {v v' : α}
    (hm : m c = .ok (v, c')) (hm' : m d = .ok (v', d')) (S : ℕ) (root : ZMod p) (rnd : List (ZMod p)) (srs : Srs G G2) :
    v = v' ∧ (∀ e, finalize S root rnd c' = .error e ↔ finalize S root rnd d' = .error e) ∧
      ∀ f f', finalize S root rnd c' = .ok f → finalize S root rnd d' = .ok f' →
        preprocess rnd srs f = preprocess rnd srs f' := by
  obtain ⟨h1, h2⟩ := h.shape c d hcd v c' v' d' hm hm'
  exact ⟨h1, C91_same_key h2 S root rnd srs⟩

variable {S : ℕ} {root : ZMod p} {rnd : List (ZMod p)}

/-- **C91, the honest prover with lookup tables.** Let the stored values satisfy a circuit, and let the gadget work for them
(`hon`). Then the call succeeds, and proofs made for the circuit are accepted with its public inputs. -/
theorem C91_table_accepted (h : TableExact k m dom pre out rel hon res) (hroot : IsPrimitiveRoot root (2 ^ S)) {c : Circ p}
    (hc : Built c) (hr : c.tableGateIds.length + k < p) (hd : dom c) {pi : List (ZMod p)} (hpi : publicInput c = .ok pi)
    (hs : checkSat c pi = .ok ()) (hp : pre c.val) (hh : hon c.val) :
    ∃ v c', m c = .ok (v, c') ∧ res c.val (out c'.val v) ∧
      ∀ {f : FCirc p}, finalize S root rnd c' = .ok f → Supported c' f → ∀ {s : ZMod p} {g : G} {h : G2} {M : ℕ},
        f.dom.size + 2 ≤ M → ∀ {pk : PKey (ZMod p) G G2}, preprocess rnd (genSrs s g h M 1) f = .ok pk →
        ∀ (e : G →ₗ[ZMod p] G2 →ₗ[ZMod p] GT), e g h ≠ 0 → ∀ (hash : List (ZMod p) → ZMod p) {gen : ZMod p}, gen ≠ 0 →
        ∀ {oracle : List (Call (ZMod p) G G2) → ZMod p} {extra : Option (List ℕ)} {masks : ℕ → Masks (ZMod p)}
          {quotMask : ℕ → ZMod p} {π : BProof (ZMod p) G},
          batchProve gen (newDomain S root) oracle extra masks quotMask [f.arith] [pk] = .ok π →
          verifyBatch (newDomain S root) e hash (challenges oracle extra) [pk.vk] [pi] π = .ok true := by
  have ht := tablesOK_of_built hc
  obtain ⟨h1, h2⟩ := h.honest c hc.ok.wf ht hr hd pi hs hp
  obtain ⟨v, c', hm, hs'⟩ := h1.2 hh
  obtain ⟨hb, hi⟩ := C91_table_gadget h hc hr hd hm
  refine ⟨v, c', hm, h2 v c' hm hs', ?_⟩
  intro f hf hsup s g h' M hM pk hpk e he hash gen hgen oracle extra masks quotMask π hπ
  refine Verif.Props.Prover.C74_honest (rnd := rnd) (m := M) (x := s) (g := g) (h := h') hroot (L := [⟨c', f, pk, pi⟩])
    ?_ e he hash hgen hπ
  intro y hy
  obtain rfl := List.mem_singleton.1 hy
  exact ⟨hb, hf, hsup, hM, hpk, by rw [hi]; exact hpi, hs'⟩

/-- **C91, soundness with lookup tables.** Consider the circuit after the gadget, made with any stored values. A prover that
commits to wire polynomials that do not carry values which satisfy the circuit before the gadget and are in the relation of
the gadget is rejected, except for few values of each challenge in turn (and of the secret of the reference string). -/
theorem C91_table_sound (h : TableExact k m dom pre out rel hon res) (hroot : IsPrimitiveRoot root (2 ^ S)) {c : Circ p}
    (hc : Built c) (hr : c.tableGateIds.length + k < p) (hd : dom c) {v : α} {c' : Circ p} (hm : m c = .ok (v, c'))
    {f : FCirc p} (hf : finalize S root rnd c' = .ok f) (hsup : Supported c' f) {I : Inst (ZMod p)} (hI : KeyOf f I)
    (w : ℕ → (ZMod p)[X]) (hw : ∀ j, Low f.dom (w j))
    (hno : ¬ ∃ a, Carries f w a ∧ Sat c I.inputs a ∧ (pre a → rel a (out a v)))
    (e : G →ₗ[ZMod p] G2 →ₗ[ZMod p] GT) (hash : List (ZMod p) → ZMod p) (g : G) (h' : G2) (he : e g h' ≠ 0)
    {M : ℕ} (hM : f.dom.size + 2 ≤ M) :
    AllBut (4 * f.dom.size) fun τ => ∀ h1 h2 : ℕ → (ZMod p)[X], (∀ i, Low f.dom (h1 i)) → (∀ i, Low f.dom (h2 i)) →
    AllBut (12 * f.dom.size * p) fun βγ : ZMod p × ZMod p => ∀ z prod : ℕ → (ZMod p)[X], (∀ i, Low f.dom (z i)) →
      (∀ i, Low f.dom (prod i)) →
    AllBut (7 * 1) fun α => ∀ ts : List (ZMod p)[X], ts ≠ [] → (∀ t ∈ ts, Low f.dom t) →
    AllBut (7 * (f.dom.size + 2) + (f.dom.size + 2) * ts.length) fun ζ => ∀ cl : ℕ → Claims (ZMod p),
    AllBut (27 * 1) fun v => ∀ W W' : (ZMod p)[X], Low f.dom W → Low f.dom W' →
    AllBut 1 fun u => AllBut (f.dom.size + 3) fun s =>
      Rejected S root rnd e hash g h' M 1 (fun _ => f) (fun _ => I) ⟨some τ, α, βγ.1, βγ.2, ζ, v, u⟩
        (proof (kzg s g) (withClaims 1 (fun _ => I) (fun _ => w) h1 h2 z prod cl) ts W W') s := by
  have ht := tablesOK_of_built hc
  obtain ⟨hb, -⟩ := C91_table_gadget h hc hr hd hm
  have hB : Batch S root rnd 1 f.dom (fun _ => c') (fun _ => f) (fun _ => I) :=
    ⟨one_ne_zero, hroot, fun _ _ => hb, fun _ _ => hf, fun _ _ => rfl, fun _ _ => hsup,
      fun _ _ => hI, _, fun _ _ => rfl⟩
  refine C73_sound hB (fun _ => w) (fun _ => hw) ⟨0, one_pos, ?_⟩ e hash g h' he hM some (fun _ _ _ _ => rfl)
  rintro ⟨a, ha, hs⟩
  exact hno ⟨a, ha, h.old c hc.ok.wf ht hr hd v c' hm _ a hs, fun hp => h.sound hc.ok.wf ht hr hd hm hs hp⟩

end gadget

/-! ## Example: a multiplication in a circuit with lookups -/

section examples

/-- the curve of `Props/Poe.lean` with scalars of four bits -/
def exL : TE 769 := ⟨1, 7, 13⟩

/-- a circuit with lookups, the public point `P` and a secret number `n` -/
def exStart (P : ZMod 769 × ZMod 769) (n : ZMod 769) : Build 769 ((ℕ × ℕ) × ℕ) := do
  let v ← createPublicPointVariable P
  let s ← createVariable n
  pure (v, s)

theorem ex_start (P : ZMod 769 × ZMod 769) (n : ZMod 769) : ∃ c, exStart P n (Circ.new 769 (some 2)) = .ok (((2, 3), 4), c) ∧
    Built c ∧ c.tableGateIds = [] ∧ c.numVars = 5 ∧ c.ultra = some 2 ∧ pt c.val (2, 3) = P ∧ c.val 4 = n ∧
    c.pubIds[0]? = some 2 ∧ c.rows[2]? = some ⟨ioGate, 0, 0, 0, 0, 2⟩ := by
  refine ⟨_, rfl, ?_, rfl, rfl, rfl, rfl, rfl, rfl, rfl⟩
  obtain ⟨c1, e1, P1⟩ := createPublic (Built.new (p := 769) (some 2)) P.1
  obtain ⟨c2, e2, P2⟩ := createPublic P1.built P.2
  obtain rfl := (Prod.mk.inj (Except.ok.inj (e1.symm.trans rfl))).2
  obtain rfl := (Prod.mk.inj (Except.ok.inj (e2.symm.trans rfl))).2
  exact Built.var _ _ n 4 P2.built rfl

theorem ex_run : ∃ c c' v f, exStart (72, 207) 2 (Circ.new 769 (some 2)) = .ok (((2, 3), 4), c) ∧
    msmWithLength exL [(2, 3)] [4] 3 c = .ok (v, c') ∧ finalize 8 562 rnd769 c' = .ok f ∧ f.dom.size = 32 ∧
    c'.pubIds.length = 2 ∧ c'.ultra = some 2 ∧ (∀ t ∈ c'.tableGateIds, c'.pubIds.length ≤ t.1 ∧ t.1 + t.2 + 1 < 32) ∧
    c'.tableGateIds.length = 1 ∧ (f.circ.rows.map (fun r => r.w4))[0]? = some 2 := by
  have h : okAnd (exStart (72, 207) 2 (Circ.new 769 (some 2))) (fun x => decide (x.1 = ((2, 3), 4)) &&
      okAnd (msmWithLength exL [(2, 3)] [4] 3 x.2) fun y => okAnd (finalize' 8 562 rnd769 y.2) fun f =>
        decide (f.dom.size = 32 ∧ y.2.pubIds.length = 2 ∧ y.2.ultra = some 2 ∧
          (∀ t ∈ y.2.tableGateIds, y.2.pubIds.length ≤ t.1 ∧ t.1 + t.2 + 1 < 32) ∧ y.2.tableGateIds.length = 1 ∧
          (f.circ.rows.map (fun r => r.w4))[0]? = some 2)) = true := by
    decide +kernel
  obtain ⟨⟨x, c⟩, hx, h⟩ := okAnd_elim h
  rw [Bool.and_eq_true, decide_eq_true_iff] at h
  obtain ⟨rfl, h⟩ := h
  obtain ⟨⟨v, c'⟩, hv, h⟩ := okAnd_elim h
  obtain ⟨f, hf, h⟩ := okAnd_elim h
  rw [decide_eq_true_iff] at h
  rw [← finalize_eq] at hf
  exact ⟨c, c', v, f, hx, hv, hf, h⟩

/-- The circuit for `2 • (72, 207)` with one lookup table: the hypotheses of `C91_table_sound` for wires that are zero
everywhere.  The numbers of exceptions leave challenges over. -/
example : ∃ (c c' : Circ 769) (v : ℕ × ℕ) (f : FCirc 769) (I : Inst (ZMod 769)), Built c ∧ c.tableGateIds.length + 1 < 769 ∧
    Msm.LDom [(2, 3)] [4] c ∧ msmWithLength exL [(2, 3)] [4] 3 c = .ok (v, c') ∧ c'.tableGateIds.length = 1 ∧
    finalize 8 562 rnd769 c' = .ok f ∧ Supported c' f ∧ KeyOf f I ∧ I.inputs = [72, 207] ∧
    (¬ ∃ a, Carries f (fun _ => 0) a ∧ Sat c I.inputs a ∧ ((∀ b ∈ [((2, 3) : ℕ × ℕ)], exE.mem (pt a b)) →
      (∀ s ∈ [4], (a s).val < 2 ^ Msm.windowBits 3) ∧
        Msm.IsMsm exE a [(2, 3)] ([4].map fun s => (a s).val) (pt a v))) ∧
    4 * f.dom.size < 769 ∧ 12 * f.dom.size * 769 < 769 * 769 ∧ 7 * (f.dom.size + 2) + (f.dom.size + 2) * 6 < 769 := by
  obtain ⟨c, c', v, f, hx, hv, hf, hn, h2, hu, ht, hl, hw⟩ := ex_run
  obtain ⟨c1, hx1, hb, q1, q2, q3, -, -, hp, hrow⟩ := ex_start (72, 207) 2
  obtain rfl := (Prod.mk.inj (Except.ok.inj (hx.symm.trans hx1))).2
  have hd : Msm.LDom [(2, 3)] [4] c := ⟨⟨by simp [q2], by simp [q2]⟩, by rw [q3]; simp⟩
  have hr : c.tableGateIds.length + [((2, 3) : ℕ × ℕ)].length < 769 := by rw [q1]; decide
  have ex_exact := Msm.C34_lookup_sound exL exE rfl rfl [(2, 3)] [4] 3 (by decide) rfl (by simp) (by decide) (by decide)
  obtain ⟨hb', -⟩ := C91_table_gadget ex_exact hb hr hd hv
  obtain ⟨I, hI, hin⟩ := C73_key hb' prim562 hf [72, 207] (by rw [h2]; rfl)
  refine ⟨c, c', v, f, I, hb, hr, hd, hv, hl, hf, fun k hk => ?_, hI, hin, ?_, by rw [hn]; norm_num, by rw [hn]; norm_num,
    by rw [hn]; norm_num⟩
  · rw [hu] at hk
    obtain rfl := Option.some.inj hk
    refine ⟨by norm_num, by norm_num, by norm_num, fun t h i g1 g2 => ?_⟩
    have := ht t h
    rw [hn]
    omega
  · rintro ⟨a, ha, hs, -⟩
    obtain ⟨r, hr, h2⟩ : ∃ r, f.circ.rows[0]? = some r ∧ r.w4 = 2 := by
      rw [List.getElem?_map] at hw
      exact Option.map_eq_some_iff.1 hw
    have h3 := ha (4, 0) 2 (Or.inl ⟨r, hr, by simp [h2]⟩)
    rw [hin] at hs
    have h5 := hs.io 0 2 72 _ hp rfl hrow
    simp [Row.Holds, Sel.output, ioGate, wireValue] at h5 h3
    exact absurd (h5.trans h3.symm) (by decide +kernel)

/-- the same circuit is satisfied, and the result is twice the point: `C91_table_accepted` -/
example : ∃ (c c' : Circ 769) (v : ℕ × ℕ), Built c' ∧ msmWithLength exL [(2, 3)] [4] 3 c = .ok (v, c') ∧
    publicInput c' = .ok [72, 207] ∧ pt c'.val v = (697, 207) := by
  obtain ⟨c, c', v, f, hx, hv, -⟩ := ex_run
  obtain ⟨c1, hx1, hb, q1, q2, q3, -⟩ := ex_start (72, 207) 2
  obtain rfl := (Prod.mk.inj (Except.ok.inj (hx.symm.trans hx1))).2
  have hd : Msm.LDom [(2, 3)] [4] c := ⟨⟨by simp [q2], by simp [q2]⟩, by rw [q3]; simp⟩
  have hr : c.tableGateIds.length + [((2, 3) : ℕ × ℕ)].length < 769 := by rw [q1]; decide
  have ex_exact := Msm.C34_lookup_sound exL exE rfl rfl [(2, 3)] [4] 3 (by decide) rfl (by simp) (by decide) (by decide)
  obtain ⟨hb', hi⟩ := C91_table_gadget ex_exact hb hr hd hv
  refine ⟨c, c', v, hb', hv, ?_, ?_⟩
  · rw [hi]
    have : okAnd (exStart (72, 207) 2 (Circ.new 769 (some 2))) (fun x => decide (publicInput x.2 = .ok [72, 207])) = true := by
      decide +kernel
    obtain ⟨y, hy, h⟩ := okAnd_elim this
    obtain rfl := Except.ok.inj (hx.symm.trans hy)
    exact of_decide_eq_true h
  · have : okAnd (exStart (72, 207) 2 (Circ.new 769 (some 2))) (fun x => okAnd (msmWithLength exL [(2, 3)] [4] 3 x.2)
        fun y => decide (pt y.2.val y.1 = (697, 207))) = true := by
      decide +kernel
    obtain ⟨y, hy, h⟩ := okAnd_elim this
    obtain rfl := Except.ok.inj (hx.symm.trans hy)
    obtain ⟨z, hz, h⟩ := okAnd_elim h
    obtain rfl := Except.ok.inj (hv.symm.trans hz)
    exact of_decide_eq_true h

end examples

end Verif.Props.Poe
