import Verif.Circuit.VerifierConst
import Verif.Circuit.MsmLoop
import Verif.Circuit.EmulatedFns

/-!
# The verifier circuit with other hints

The gates a builder lays out do not depend on the stored values (`Rel`). `linConstAdv` lays out the same gates as
`linConst` for one instance but stores other hints for the sum `w_4 + γ` and for the product that follows.
-/

set_option linter.unusedSectionVars false

namespace Verif.Circuit.VerifierPoly

open Verif.Circuit Verif.Conv

variable {p : ℕ}

section rel

variable [Fact p.Prime]

theorem switch_rel {s t : ℕ} {β : Type} (x y : ZMod s) {f f' : ZMod t → Build p β} (hf : ∀ a b, Rel (f a) (f' b)) :
    Rel (switch t x >>= f) (switch t y >>= f') := by
  unfold switch
  cases fieldSwitching t x with
  | error e => exact Rel.failL _ _
  | ok a =>
    cases fieldSwitching t y with
    | error e => exact Rel.failR _ _
    | ok b => exact hf a b

theorem wit_rel {β : Type} (x : FpElemVar p) {f f' : ZMod p → Build p β} (hf : ∀ a b, Rel (f a) (f' b)) :
    Rel (wit x >>= f) (wit x >>= f') := by
  unfold wit
  simp only [build_bind_assoc, build_pure_bind]
  exact Rel.witness_bind fun a a' => Rel.witness_bind fun b b' => hf _ _

theorem newFrom_rel (x y : ZMod p) (m : ℕ) (t : Option (ZMod p)) :
    Rel (newFromFieldElement x m t) (newFromFieldElement y m t) := by
  unfold newFromFieldElement
  refine Rel.liftE_bindL fun a _ => Rel.swap (Rel.liftE_bindL fun b _ => ?_)
  unfold newFromFpElem
  exact Rel.bind (Rel.createVariable _ _) fun v0 => Rel.bind (Rel.createVariable _ _) fun v1 =>
    Rel.bind (rangeGateWithLookup_rel _ _) fun _ => Rel.bind (rangeGateWithLookup_rel _ _) fun _ => Rel.pure _

theorem newElem_rel {Q : ℕ} (I : Info p) (x y : ZMod Q) : Rel (newElem I x) (newElem I y) := by
  unfold newElem
  exact switch_rel _ _ fun a b => newFrom_rel _ _ _ _

theorem const_rel' {β : Type} (I : Info p) (x : ZMod p) {f f' : FpElem p → Build p β} (hf : ∀ a, Rel (f a) (f' a)) :
    Rel (const I x >>= f) (const I x >>= f') := Rel.bind (Rel.liftE _) hf

theorem enforceEq_rel (x y : FpElemVar p) : Rel (x.enforceEqual y) (x.enforceEqual y) := by
  unfold FpElemVar.enforceEqual
  exact Rel.guard (Rel.bind (enforceEqual_rel _ _) fun _ => enforceEqual_rel _ _)

theorem switch_refl {s t : ℕ} {β : Type} (x : ZMod s) {f f' : ZMod t → Build p β} (hf : ∀ a, Rel (f a) (f' a)) :
    Rel (switch t x >>= f) (switch t x >>= f') := by
  unfold switch
  cases fieldSwitching t x with
  | error e => exact Rel.failL _ _
  | ok a => exact hf a

theorem piStep_rel {Q : ℕ} (I : Info p) (ζ van : FpElemVar p) (ζr vanr ζr' vanr' gi vi : ZMod Q) :
    Rel (piStep I ζ van ζr vanr gi vi) (piStep I ζ van ζr' vanr' gi vi) := by
  unfold piStep
  refine switch_refl _ fun a => const_rel' _ _ fun vE => switch_refl _ fun b => const_rel' _ _ fun gE => Rel.guard ?_
  exact Rel.bind (newElem_rel _ _ _) fun dv => Rel.bind (modAddConstant_rel _ _ _) fun ζRec =>
    Rel.bind (enforceEq_rel _ _) fun _ => Rel.bind (newElem_rel _ _ _) fun lv => Rel.bind (modMul_rel _ _ _) fun l =>
    Rel.bind (modMulConstant_rel _ _ _) fun r => Rel.bind (enforceEq_rel _ _) fun _ => Rel.pure _

theorem piLoop_rel {Q : ℕ} (I : Info p) (n : ℕ) (g : ZMod Q) (ζ van : FpElemVar p) (ζr vanr ζr' vanr' : ZMod Q)
    (is : List ℕ) : Rel (piLoop I n g ζ van ζr vanr is) (piLoop I n g ζ van ζr' vanr' is) := by
  induction is with
  | nil => exact Rel.pure _
  | cons i is ih =>
    rw [piLoop, piLoop]
    exact Rel.bind (piStep_rel _ _ _ _ _ _ _ _ _) fun l => Rel.bind ih fun ls => Rel.pure _

theorem piTerms_rel (q : FpElem p) (l : List ((FpElemVar p × FpElemVar p) × (FpElemVar p × FpElemVar p))) :
    Rel (piTerms q l) (piTerms q l) := by
  induction l with
  | nil => exact Rel.pure _
  | cons x l ih =>
    obtain ⟨a, b⟩ := x
    rw [piTerms]
    exact Rel.bind (modMul_rel _ _ _) fun s => Rel.bind (modMul_rel _ _ _) fun t => Rel.bind ih fun r => Rel.pure _

theorem evalPi_rel {Q : ℕ} (I : Info p) (n : ℕ) (g : ZMod Q) (pis : List (FpElemVar p)) (ζ van : FpElemVar p) :
    Rel (evalPi I n g pis ζ van) (evalPi I n g pis ζ van) := by
  unfold evalPi
  refine wit_rel _ fun a b => switch_rel _ _ fun ζr ζr' => wit_rel _ fun a b => switch_rel _ _ fun vr vr' => Rel.guard ?_
  exact Rel.bind (piLoop_rel _ _ _ _ _ _ _ _ _ _) fun ls => Rel.bind (piTerms_rel _ _) fun ts => modAddVec_rel _ _

theorem permLoop_rel (q : FpElem p) (β γ : FpElemVar p) (l : List (FpElemVar p × FpElemVar p)) : ∀ prod,
    Rel (permLoop q β γ l prod) (permLoop q β γ l prod) := by
  induction l with
  | nil => intro prod; exact Rel.pure _
  | cons x l ih =>
    intro prod
    obtain ⟨a, b⟩ := x
    rw [permLoop]
    exact Rel.bind (modMul_rel _ _ _) fun bs => Rel.bind (modAddVec_rel _ _) fun s => Rel.bind (modMul_rel _ _ _) fun pr =>
      Rel.bind (ih _) fun r => Rel.pure _

end rel

section defs

variable [Fact p.Prime]

/-- `constInstance` after the product with `perm_next_eval` -/
def constRest {Q : ℕ} (I : Info p) (ch : ChalVar p) (pv l1a2 : FpElemVar p) (pr lr : ZMod Q)
    (r : FpElemVar p × List (FpElemVar p)) (s tmp : FpElemVar p) : Build p (FpElemVar p × List (FpElemVar p)) := do
  let tmp ← modMul tmp ch.α I.mod
  let tmp ← modMul tmp r.1 I.mod
  let tmpw ← wit tmp
  let tmpr ← switch Q tmpw
  let rv ← newElem I (pr - lr - tmpr)
  let left ← modAdd rv l1a2 I.mod
  let left ← modAdd left tmp I.mod
  left.enforceEqual pv
  pure (rv, s :: r.2)

theorem constRest_rel {Q : ℕ} (I : Info p) (ch : ChalVar p) (pv l1a2 : FpElemVar p) (pr lr pr' lr' : ZMod Q)
    (r : FpElemVar p × List (FpElemVar p)) (s tmp : FpElemVar p) :
    Rel (constRest I ch pv l1a2 pr lr r s tmp) (constRest I ch pv l1a2 pr' lr' r s tmp) := by
  unfold constRest
  exact Rel.bind (modMul_rel _ _ _) fun t => Rel.bind (modMul_rel _ _ _) fun t => wit_rel _ fun a b =>
    switch_rel _ _ fun a b => Rel.bind (newElem_rel _ _ _) fun rv => Rel.bind (modAdd_rel _ _ _) fun l =>
    Rel.bind (modAdd_rel _ _ _) fun l => Rel.bind (enforceEq_rel _ _) fun _ => Rel.pure _

/-- `constInstance` with other hints -/
def constInstanceAdv {Q : ℕ} (I : Info p) (ch : ChalVar p) (e : EvalsVar p) (pv l1a2 : FpElemVar p) (pr lr : ZMod Q)
    (z r0 r1 : ZMod p) (h : MulHints p) : Build p (FpElemVar p × List (FpElemVar p)) :=
  match e.wires[4]? with
  | none => Build.fail .panic
  | some w4 => do
    let r ← permLoop I.mod ch.β ch.γ ((e.wires.take 4).zip e.sigmas) (oneElem I)
    let s ← modAdd2Adv w4 ch.γ I.mod z (r0 + I.mod.tpm * r1) r0 r1
    let tmp ← modMulAdv s e.permNext I.mod h
    constRest I ch pv l1a2 pr lr r s tmp

theorem constInstance_rel {Q : ℕ} (I : Info p) (ch : ChalVar p) (e : EvalsVar p) (pv l1a2 : FpElemVar p)
    (pr lr pr' lr' : ZMod Q) (z r0 r1 : ZMod p) (h : MulHints p) :
    Rel (constInstance I ch e pv l1a2 pr lr) (constInstanceAdv I ch e pv l1a2 pr' lr' z r0 r1 h) := by
  unfold constInstance constInstanceAdv
  cases e.wires[4]? with
  | none => exact Rel.failL _ _
  | some w4 =>
    exact Rel.bind (permLoop_rel _ _ _ _ _) fun r => Rel.bind (modAdd_rel' _ _ _ _ _ _ _) fun s =>
      Rel.bind (modMul_rel' _ _ _ _) fun t => constRest_rel _ _ _ _ _ _ _ _ _ _ _

/-- `linConst` for one instance with other hints -/
def linConstAdv {Q : ℕ} (I : Info p) (n : ℕ) (g : ZMod Q) (ch : ChalVar p) (pis : List (FpElemVar p))
    (e : EvalsVar p) (van l1 b : FpElemVar p) (z r0 r1 : ZMod p) (h : MulHints p) :
    Build p (FpElemVar p × List (FpElemVar p)) := do
  let pv ← evalPi I n g pis ch.ζ van
  let pw ← wit pv
  let pr ← switch Q pw
  let l1a2 ← modMul l1 ch.α2 I.mod
  let lw ← wit l1a2
  let lr ← switch Q lw
  let r ← constInstanceAdv I ch e pv l1a2 pr lr z r0 r1 h
  let c ← modMul b r.1 I.mod
  let res ← modAddVec [c] I.mod
  pure (res, r.2)

theorem linConst_rel {Q : ℕ} (I : Info p) (n : ℕ) (g : ZMod Q) (ch : ChalVar p) (pis : List (FpElemVar p))
    (e : EvalsVar p) (van l1 b : FpElemVar p) (z r0 r1 : ZMod p) (h : MulHints p) :
    Rel (linConst I n g ch 1 1 1 pis [e] van l1 [b]) (linConstAdv I n g ch pis e van l1 b z r0 r1 h) := by
  unfold linConst linConstAdv
  rw [if_neg (by simp), if_neg (by simp)]
  refine Rel.bind (evalPi_rel _ _ _ _ _ _) fun pv => wit_rel _ fun _ _ => switch_rel _ _ fun pr pr' =>
    Rel.bind (modMul_rel _ _ _) fun l1a2 => wit_rel _ fun _ _ => switch_rel _ _ fun lr lr' => ?_
  simp only [constLoop, build_bind_assoc, build_pure_bind, List.append_nil]
  exact Rel.bind (constInstance_rel _ _ _ _ _ _ _ _ _ _ _ _ _) fun r => Rel.bind (modMul_rel _ _ _) fun c =>
    Rel.bind (modAddVec_rel _ _) fun r => Rel.pure _

end defs

section spec

variable [hp : Fact p.Prime] {Q : ℕ} [hQ : Fact Q.Prime] {I : Info p} {k : ℕ}

/-- an addition with other hints -/
theorem addAdv_spec {c : Circ p} {H : Prop} (hc : Ctx H k c) {x y : FpElemVar p} (hx : x.In c) (hy : y.In c)
    (q : FpElem p) (mx : x.m = q.m) (z r0 r1 : ZMod p) (hz : z.val < 2 ^ k)
    (he : r0 + q.tpm * r1 = x.felt c.val + y.felt c.val - q.fieldElem * z) :
    Spec (modAdd2Adv x y q z (r0 + q.tpm * r1) r0 r1) c True
      (fun v c' => v.In c' ∧ v.Match q ∧ c'.val v.v0 = r0 ∧ c'.val v.v1 = r1) (fun _ _ => True) := by
  have hk := hc.ultra
  have hr := hc.rng
  obtain ⟨k0, -, -⟩ := hr k hk
  unfold modAdd2Adv
  refine Spec.of_eq (rangeBitLen_eq hk) ?_
  refine Spec.bind (toVar_spec hc.wf x) (fun _ _ _ => hx) hc.wf ?_
  rintro xv c1 e1 ⟨h1, h2⟩
  refine Spec.bind (toVar_spec e1.wf y) (fun _ _ _ => hy.ext e1) e1.wf ?_
  rintro yv c2 e2 ⟨h3, h4⟩
  have hs : Spec (modAddAdv [xv, yv] q.fieldElem (numRangeBlocks p k) z (r0 + q.tpm * r1)) c2 True
      (fun v c' => v < c'.numVars ∧ c'.val v = r0 + q.tpm * r1) (fun _ _ => True) := by
    unfold modAddAdv
    refine Spec.of_eq (rangeBitLen_eq (by rw [e2.ultra, e1.ultra, hk])) ?_
    refine Spec.conseq e2.wf (modAddWith_spec e2.wf ((hr.ext e1).ext e2) [xv, yv] ?_ _ k _ z _)
      (fun _ _ _ => ⟨by rw [e2.ultra, e1.ultra, hk]; rfl, k0, Nat.succ_pos _, hz, lt_numRangeBlocks k0 _, ?_⟩)
      (fun _ _ _ g => g) (fun _ _ _ _ _ => trivial)
    · intro v hv
      simp only [List.mem_cons, List.not_mem_nil, or_false] at hv
      rcases hv with rfl | rfl
      · exact e2.lt h1
      · exact h3
    · simp only [List.map_cons, List.map_nil, List.sum_cons, List.sum_nil, add_zero]
      rw [e2.val _ h1, h2, h4, FpElemVar.felt_ext hy e1]
      exact he
  refine Spec.bind hs (fun _ _ _ => trivial) e2.wf ?_
  rintro res c3 e3 ⟨hl, hv⟩
  exact Spec.conseq e3.wf (splitWith_spec e3.wf res x.m q.tpm r0 r1) (fun _ _ _ => ⟨hl, hv.symm⟩)
    (fun _ _ _ g => ⟨g.1, ⟨g.2.1.trans mx, g.2.2.1⟩, g.2.2.2⟩) (fun _ _ _ _ _ _ _ _ => trivial)

/-- a multiplication with other hints -/
theorem mulAdv_spec {c : Circ p} {H : Prop} (hc : Ctx H k c) {x y : FpElemVar p} (hx : x.In c) (hy : y.In c)
    (q : FpElem p) (hm : 0 < q.m) (h : MulHints p) (h1 : h.Ranges q.m k)
    (h2 : h.Eqs q (c.val x.v0) (c.val x.v1) (c.val y.v0) (c.val y.v1)) :
    Spec (modMulAdv x y q h) c True
      (fun v c' => v.In c' ∧ v.Match q ∧ c'.val v.v0 = h.z0 ∧ c'.val v.v1 = h.z1) (fun _ _ => True) := by
  unfold modMulAdv
  refine Spec.of_eq (rangeBitLen_eq hc.ultra) ?_
  exact Spec.conseq hc.wf (modMulWith_spec hc.wf hc.rng x y q k h)
    (fun _ _ _ => ⟨by rw [hc.ultra]; rfl, hx, hy, hm, h1, h2⟩) (fun _ _ _ g => ⟨g.1, ⟨g.2.1, g.2.2.1⟩, g.2.2.2⟩)
    (fun _ _ _ _ _ => trivial)

/-- multiplication of an element in range that need not be reduced -/
theorem mulSmall_spec (h : Par I Q k) {c : Circ p} (hc : Ctx True k c) {x y : FpElemVar p} {b : ZMod Q}
    (hx : x.In c) (mx : x.Match I.mod) (sx : x.Small I.mod c.val) (hy : Hol True I.mod b y c) :
    Spec (modMul x y I.mod) c True (fun v c' => Hol True I.mod (El Q I.mod c.val x * b) v c') (fun _ _ => True) := by
  refine Spec.conseq hc.wf (modMul_spec hc.wf hc.rng hc.ultra x y hx hy.1 I.mod mx hy.2.1 h.mul) ?_ ?_
    (fun _ _ _ _ _ => trivial)
  · intro _ _ _
    have sy := hy.2.2 trivial
    refine ⟨sx, sy.small h, ?_⟩
    rw [sy.num, h.int]
    have hQ0 : 0 < Q := hQ.out.pos
    refine Nat.div_lt_of_lt_mul ?_
    have h1 := num_lt sx
    have h2 := ZMod.val_lt b
    rw [mul_comm Q]
    exact Nat.mul_lt_mul'' h1 h2
  · rintro v c' e ⟨g1, g2, g3, g4, g5⟩
    refine ⟨g1, ⟨g2, g3⟩, fun hH => ?_⟩
    have hv : (El Q I.mod c.val x * b).val = x.num I.mod c.val * b.val % Q := by
      have eb : ((b.val : ℕ) : ZMod Q) = b := by rw [ZMod.natCast_val, ZMod.cast_id]
      have : El Q I.mod c.val x * b = ((x.num I.mod c.val * b.val : ℕ) : ZMod Q) := by
        rw [Nat.cast_mul, eb]; rfl
      rw [this, ZMod.val_natCast]
    rw [(hy.2.2 hH).num, h.int, ← hv] at g4 g5
    exact ⟨g4, g5⟩

theorem constRest_spec (h : Par I Q k) {c : Circ p} (hc : Ctx True k c) {ch : ChalVar p} {α pz lz pd : ZMod Q}
    (hα : Hol True I.mod α ch.α c) {pv l1a2 : FpElemVar p} (hpv : Hol True I.mod pz pv c)
    (hl : Hol True I.mod lz l1a2 c) {r : FpElemVar p × List (FpElemVar p)} (hr : Hol True I.mod pd r.1 c)
    {s tmp : FpElemVar p} (hx : tmp.In c) (mx : tmp.Match I.mod) (sx : tmp.Small I.mod c.val) :
    Spec (constRest I ch pv l1a2 pz lz r s tmp) c True
      (fun r' c' => Hol True I.mod (pz - lz - El Q I.mod c.val tmp * α * pd) r'.1 c') (fun _ _ => True) := by
  unfold constRest
  refine hbind hc.wf (mulSmall_spec h hc hx mx sx hα) ?_
  intro t2 c4 e4 ht2
  have hc4 := hc.ext e4
  refine hbind e4.wf (mul_spec h hc4 ht2 (hr.ext e4)) ?_
  intro t3 c5 e5 ht3
  have hc5 := hc4.ext e5
  have e15 := e4.trans e5
  refine read_bind h ht3 ?_
  intro tr htr
  refine hbind e5.wf (newElem_spec h hc5 (a := pz - lz - El Q I.mod c.val tmp * α * pd)
    (fun hH => by rw [htr hH])) ?_
  intro rv c6 e6 hrv
  have hc6 := hc5.ext e6
  have e16 := e15.trans e6
  refine hbind e6.wf (add_spec h hc6 hrv (hl.ext e16)) ?_
  intro left c7 e7 hleft
  have hc7 := hc6.ext e7
  refine hbind e7.wf (add_spec h hc7 hleft (ht3.ext (e6.trans e7))) ?_
  intro left2 c8 e8 hleft2
  have hc8 := hc7.ext e8
  refine hbind e8.wf (eq_spec hc8 hleft2 (hpv.ext (e16.trans (e7.trans e8))) (fun _ => by ring)) ?_
  intro _ c9 e9 _
  exact Spec.pure e9.wf (hrv.ext (e7.trans (e8.trans e9))) (fun _ _ _ _ _ _ _ _ _ => trivial)

/-- the hints make the product of the sum and `perm_next_eval` a number `zv` -/
structure Attack (I : Info p) (Q k : ℕ) (A B X : ZMod Q) (r0 r1 : ZMod p) (h : MulHints p) : Prop where
  sum : r0 + I.mod.tpm * r1 = ((A.val + B.val : ℕ) : ZMod p)
  ranges : h.Ranges I.mod.m k
  eqs : h.Eqs I.mod r0 r1 ((X.val % 2 ^ I.mod.m : ℕ) : ZMod p) ((X.val / 2 ^ I.mod.m : ℕ) : ZMod p)

/-- the element the hints stand for -/
def hintEl (Q : ℕ) (I : Info p) (h : MulHints p) : ZMod Q := ((h.z0.val + 2 ^ I.mod.m * h.z1.val : ℕ) : ZMod Q)

theorem constInstanceAdv_spec (h : Par I Q k) {c : Circ p} (hc : Ctx True k c) {ch : ChalVar p} {α β γ : ZMod Q}
    (hα : Hol True I.mod α ch.α c) (hβ : Hol True I.mod β ch.β c) (hγ : Hol True I.mod γ ch.γ c)
    {e : EvalsVar p} {a : EvalsVal Q} (he : HolE True I.mod a e c) (hw : 5 ≤ e.wires.length)
    {pv l1a2 : FpElemVar p} {pz lz : ZMod Q} (hpv : Hol True I.mod pz pv c) (hl : Hol True I.mod lz l1a2 c)
    {r0 r1 : ZMod p} {hh : MulHints p} (hA : Attack I Q k (a.wires.getD 4 0) γ a.permNext r0 r1 hh) :
    Spec (constInstanceAdv I ch e pv l1a2 pz lz 0 r0 r1 hh) c True
      (fun r c' => Hol True I.mod (pz - lz - hintEl Q I hh * α * permVal β γ ((a.wires.take 4).zip a.sigmas)) r.1 c')
      (fun _ _ => True) := by
  obtain ⟨w4, hw4⟩ : ∃ w4, e.wires[4]? = some w4 := ⟨e.wires[4], List.getElem?_eq_getElem (by omega)⟩
  have hw4' := getD_hol he.1 hw hw4
  unfold constInstanceAdv
  rw [hw4]
  simp only
  refine hbind hc.wf (permLoop_spec h _ hc hβ hγ (one_hol h hc) (zip_hol he)) ?_
  rintro r c1 e1 ⟨hr, -⟩
  have hc1 := hc.ext e1
  rw [one_mul] at hr
  refine hbind e1.wf (addAdv_spec hc1 (hw4'.ext e1).1 (hγ.ext e1).1 I.mod hw4'.2.1.1 0 r0 r1 (by simp) ?_) ?_
  · rw [hA.sum, ((hw4'.ext e1).2.2 trivial).felt h hw4'.2.1, ((hγ.ext e1).2.2 trivial).felt h hγ.2.1]
    push_cast
    ring
  rintro s c2 e2 ⟨i2, m2, v20, v21⟩
  have hc2 := hc1.ext e2
  have e12 := e1.trans e2
  have hpn := he.2.2.ext e12
  refine hbind e2.wf (mulAdv_spec hc2 i2 hpn.1 I.mod h.mul.mpos hh hA.ranges ?_) ?_
  · obtain ⟨p0, p1⟩ := hpn.2.2 trivial
    rw [v20, v21, ← ZMod.natCast_zmod_val (c2.val e.permNext.v0), ← ZMod.natCast_zmod_val (c2.val e.permNext.v1), p0, p1]
    exact hA.eqs
  rintro t c3 e3 ⟨i3, m3, v30, v31⟩
  have hc3 := hc2.ext e3
  have e13 := e12.trans e3
  have e23 := e2.trans e3
  refine Spec.conseq e3.wf (constRest_spec h hc3 (hα.ext e13) (hpv.ext e13) (hl.ext e13) (hr.ext e23) i3 m3
    ⟨by rw [v30]; exact hA.ranges.z0, by rw [v31]; exact hA.ranges.z1⟩) (fun _ _ _ => trivial) ?_
    (fun _ _ _ _ _ _ _ _ => trivial)
  intro r' c' _ g
  have : El Q I.mod c3.val t = hintEl Q I hh := by
    unfold El hintEl FpElemVar.num; rw [v30, v31]
  rw [this] at g
  exact g

theorem linConstAdv_spec (h : Par I Q k) {n : ℕ} (hn0 : (n : ZMod Q) ≠ 0) (g : ZMod Q) {pis : List (FpElemVar p)}
    {ps : List (ZMod Q)} (hl : pis.length ≤ 2 ^ k) (hln : pis.length / 2 ≤ n)
    {c : Circ p} (hc : Ctx True k c) {ch : ChalVar p} {α α2 β γ ζ : ZMod Q} {van l1 : FpElemVar p} {b l : ZMod Q}
    (hα : Hol True I.mod α ch.α c) (hα2 : Hol True I.mod α2 ch.α2 c) (hβ : Hol True I.mod β ch.β c)
    (hγ : Hol True I.mod γ ch.γ c) (hζ : Hol True I.mod ζ ch.ζ c) (hv : Hol True I.mod b van c)
    (hl1 : Hol True I.mod l l1 c) (hpi : List.Forall₂ (fun v z => Hol True I.mod z v c) pis ps)
    (hg : ∀ i ∈ piIdx n (pis.length / 2), ζ ≠ g ^ i)
    {e : EvalsVar p} {a : EvalsVal Q} {base : FpElemVar p} {bz : ZMod Q}
    (he : HolE True I.mod a e c) (hw : 5 ≤ e.wires.length) (hb : Hol True I.mod bz base c)
    {r0 r1 : ZMod p} {hh : MulHints p} (hA : Attack I Q k (a.wires.getD 4 0) γ a.permNext r0 r1 hh) :
    Spec (linConstAdv I n g ch pis e van l1 base 0 r0 r1 hh) c True
      (fun r c' => Hol True I.mod (bz * ((prods (piPairs ((piIdx n (pis.length / 2)).map (lagVal n g ζ b)) ps)).sum -
        l * α2 - hintEl Q I hh * α * permVal β γ ((a.wires.take 4).zip a.sigmas))) r.1 c') (fun _ _ => True) := by
  have h4 := two_pow_k h
  unfold linConstAdv
  refine hbind hc.wf (evalPi_spec h hn0 g hl hln hc hζ hv hpi (fun _ => hg)) ?_
  intro pv c1 e1 hpv
  have hc1 := hc.ext e1
  refine read_bind h hpv ?_
  intro pr hpr
  rw [hpr trivial]
  refine hbind e1.wf (mul_spec h hc1 (hl1.ext e1) (hα2.ext e1)) ?_
  intro l1a2 c2 e2 hla
  have hc2 := hc1.ext e2
  have e12 := e1.trans e2
  refine read_bind h hla ?_
  intro lr hlr
  rw [hlr trivial]
  refine hbind e2.wf (constInstanceAdv_spec h hc2 (hα.ext e12) (hβ.ext e12) (hγ.ext e12) (he.ext e12) hw (hpv.ext e2) hla
    hA) ?_
  intro r c3 e3 hr
  have hc3 := hc2.ext e3
  have e13 := e12.trans e3
  refine hbind e3.wf (mul_spec h hc3 (hb.ext e13) hr) ?_
  intro t c4 e4 ht
  have hc4 := hc3.ext e4
  refine hbind e4.wf (addVec_spec h hc4 (List.Forall₂.cons ht List.Forall₂.nil) (by simp; omega)) ?_
  intro res c5 e5 hres
  refine Spec.pure e5.wf ?_ (fun _ _ _ _ _ _ _ _ => trivial)
  simpa using hres

end spec

end Verif.Circuit.VerifierPoly
