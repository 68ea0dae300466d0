import Verif.Circuit.VerifierAggEval
import Verif.Props.Msm

/-!
# The two points of the verifier circuit

`combine` makes two multi-scalar multiplications. `G` is the group of the commitments, a vector space over `ZMod Q`, and
`τ` takes it to the points of the twisted Edwards curve of the circuit.
-/

set_option linter.unusedSectionVars false

namespace Verif.Circuit.VerifierAgg

open Verif.Circuit Verif.Circuit.VerifierPoly Verif.Circuit.TranscriptVar Verif.Conv Verif.Props.Msm

variable {p : ℕ} [hp : Fact p.Prime] {Q : ℕ} [hQ : Fact Q.Prime] {I : Info p} {k : ℕ} {H : Prop}

/-- the specification of the multi-scalar multiplication, for numbers of `windowBits` bits smaller than the
characteristic -/
theorem msm_tspec {K : TE p} {E : EdGroup (ZMod p)} (hE : OnTE K E) {bases : List (ℕ × ℕ)} {scalars : List ℕ}
    (hb : Nat.size K.r ≠ 0) (hl : bases.length = scalars.length) (hne : bases ≠ [])
    (hcr : 2 ^ msmWindow (Nat.size K.r) ≤ K.r) (hwp : 2 ^ windowBits (Nat.size K.r) < p) {c : Circ p}
    (hc : TWF bases.length c) (hP : ∀ b ∈ bases, PIn c b) (hS : ∀ s ∈ scalars, s < c.numVars) :
    TSpec bases.length (msm K bases scalars) c
      ((∀ b ∈ bases, E.mem (ptAt c.val b)) ∧ ∀ s ∈ scalars, (c.val s).val < 2 ^ windowBits (Nat.size K.r))
      (fun v c' => PIn c' v)
      (fun v w => ∀ Ps : List E.Pt, bases.map (ptAt w) = Ps.map (fun P : E.Pt => P.1) →
        (∀ s ∈ scalars, (w s).val < 2 ^ windowBits (Nat.size K.r)) ∧
        ptAt w v = ((List.zipWith (fun n (P : E.Pt) => n • P) (scalars.map fun s => (w s).val) Ps).sum).1) := by
  set bits := Nat.size K.r with hbits
  have hcp : 2 ^ msmWindow bits < p := by
    refine lt_of_le_of_lt (Nat.pow_le_pow_right (by omega) ?_) hwp
    exact Nat.le_mul_of_pos_right _ (Nat.succ_pos _)
  have h1c := one_le_msmWindow bits
  have hM : windowCount (msmWindow bits) bits ≠ 0 := Nat.succ_ne_zero _
  have hdm : LDom bases scalars c := ⟨⟨hS, hP⟩, hc.ultra⟩
  have hpin : ∀ v c', msm K bases scalars c = .ok (v, c') → PIn c' v := fun v c' hm =>
    msm_lookup_in hE hb hl hne hcp hcr hc hdm hm
  have hzne : bases.zip scalars ≠ [] := by
    intro h
    have := congrArg List.length h
    rw [List.length_zip, ← hl, min_self] at this
    exact hne (List.length_eq_zero_iff.1 this)
  have main : TSpec bases.length (msm K bases scalars) c
      ((∀ b ∈ bases, E.mem (ptAt c.val b)) ∧ ∀ s ∈ scalars, (c.val s).val < 2 ^ windowBits bits)
      (fun _ _ => True)
      (fun v w => ∀ Ps : List E.Pt, bases.map (ptAt w) = Ps.map (fun P : E.Pt => P.1) →
        (∀ s ∈ scalars, (w s).val < 2 ^ windowBits bits) ∧
        ptAt w v = ((List.zipWith (fun n (P : E.Pt) => n • P) (scalars.map fun s => (w s).val) Ps).sum).1) := by
    unfold msm
    rw [msmWithLength_eq K hb hl]
    set xs := (bases.zip scalars).map (honestItem (p := p) (msmWindow bits) bits) with hxs
    have hxl : xs.length = bases.length := by rw [hxs, List.length_map, List.length_zip]; omega
    have hsp := runItems_tspec hE h1c hcp hcr hM bases scalars xs (by rw [hxs]; simpa using hzne) (by rw [hxl]; exact hc)
      (by
        intro x hx
        obtain ⟨y, hy, rfl⟩ := List.mem_map.1 hx
        obtain ⟨g1, g2⟩ := mem_zip' hy
        exact ⟨hP _ g1, hS _ g2, fun z => by simp [honestItem, windowValues_length]⟩)
    rw [hxl] at hsp
    have hbs : ∀ w : ℕ → ZMod p, xs.map (fun x => ptAt w x.base) = bases.map (ptAt w) := by
      intro w
      rw [hxs, List.map_map]
      exact zip_map_fst (ptAt w) bases scalars hl
    have hss : ∀ {γ : Type} (f : ℕ → γ), xs.map (fun x => f x.s) = scalars.map f := by
      intro γ f
      rw [hxs, List.map_map]
      exact zip_map_snd f bases scalars hl
    refine TSpec.conseq hc.wf hsp ?_ (fun _ _ _ _ => trivial) ?_
    · rintro ⟨hp, hh⟩ - - x hx
      obtain ⟨y, hy, rfl⟩ := List.mem_map.1 hx
      obtain ⟨g1, g2⟩ := mem_zip' hy
      refine ⟨⟨⟨_, hp _ g1⟩, rfl⟩, ?_, val_windowValues hcp⟩
      show c.val y.2 = horner _ ((windowValues _ _ (c.val y.2).val).map _)
      rw [cast_windowValues, Nat.mod_eq_of_lt (show (c.val y.2).val < 2 ^ (_ * _) from hh _ g2), ZMod.natCast_zmod_val]
    · rintro v w - - ⟨wss, g1, g2⟩ Ps hPs
      obtain ⟨k1, k2⟩ := forall₂_cast g1
      rw [hss w] at k1
      have e := reps_eq hwp.le k1 k2
      rw [e] at k2
      refine ⟨fun s hs => k2 _ (List.mem_map.2 ⟨s, hs, rfl⟩), ?_⟩
      rw [g2 Ps (by rw [hbs, hPs]), e]
  exact ⟨fun v c' hm => ⟨(main.sound v c' hm).1, hpin v c' hm, (main.sound v c' hm).2.2⟩, main.complete⟩

/-! ## Sequencing with tables -/

theorem thbind {α β : Type} {k k' : ℕ} {m : Build p α} {f : α → Build p β} {c : Circ p}
    {B1 : α → Circ p → Prop} {R1 : α → (ℕ → ZMod p) → Prop} {B : β → Circ p → Prop} {R : β → (ℕ → ZMod p) → Prop}
    (hc : WF c) (h1 : TSpec k m c H B1 R1)
    (h2 : ∀ v c1, TExt k c c1 → B1 v c1 → TSpec k' (f v) c1 H B (fun u w => R1 v w → R u w)) :
    TSpec (k + k') (m >>= f) c H B R :=
  TSpec.bind h1 (fun h _ _ => h) hc fun v c1 e b =>
    TSpec.conseq e.wf (h2 v c1 e b) (fun h _ _ => h.1) (fun _ _ _ h => h) (fun _ _ _ _ h => h)

theorem thbind0 {α β : Type} {k : ℕ} {m : Build p α} {f : α → Build p β} {c : Circ p}
    {B1 : α → Circ p → Prop} {R1 : α → (ℕ → ZMod p) → Prop} {B : β → Circ p → Prop} {R : β → (ℕ → ZMod p) → Prop}
    (hc : WF c) (h1 : Spec m c H B1 R1)
    (h2 : ∀ v c1, Ext c c1 → B1 v c1 → TSpec k (f v) c1 H B (fun u w => R1 v w → R u w)) :
    TSpec k (m >>= f) c H B R :=
  TSpec.bind0 h1 (fun h _ _ => h) hc fun v c1 e b =>
    TSpec.conseq e.wf (h2 v c1 e b) (fun h _ _ => h.1) (fun _ _ _ h => h) (fun _ _ _ _ h => h)

theorem Ctx.text {n : ℕ} {c c' : Circ p} (h : Ctx H k c) (e : TExt n c c') : Ctx H k c' :=
  ⟨e.wf, fun k hk => h.rng k (by rw [← e.ultra]; exact hk), by rw [e.ultra, h.ultra], fun g => by
    rw [e.val _ h.wf.z, e.val _ h.wf.o]; exact h.zo g⟩

theorem In.text {n : ℕ} {x : FpElemVar p} {c c' : Circ p} (h : x.In c) (e : TExt n c c') : x.In c' := ⟨e.lt h.1, e.lt h.2⟩

theorem felt_text {n : ℕ} {x : FpElemVar p} {c c' : Circ p} (h : x.In c) (e : TExt n c c') : x.felt c'.val = x.felt c.val := by
  unfold FpElemVar.felt
  rw [e.val _ h.1, e.val _ h.2]

theorem Hol.text {n : ℕ} {q : FpElem p} {a : ZMod Q} {x : FpElemVar p} {c c' : Circ p} (h : Hol H q a x c) (e : TExt n c c') :
    Hol H q a x c' :=
  ⟨In.text h.1 e, h.2.1, fun g => by unfold St; rw [e.val _ h.1.1, e.val _ h.1.2]; exact h.2.2 g⟩

theorem Acc.text {n : ℕ} {q : FpElem p} {a : ZMod Q} {x : FpElemVar p} {c c' : Circ p} (h : Acc H q a x c) (e : TExt n c c') :
    Acc H q a x c' := ⟨In.text h.1 e, h.2.1, fun hH => by rw [felt_text h.1 e]; exact h.2.2 hH⟩

section

variable {G : Type}

theorem HolP.text {n : ℕ} {te : G → ZMod p × ZMod p} {g : G} {P : ℕ × ℕ} {c c' : Circ p} (h : HolP H te g P c)
    (e : TExt n c c') : HolP H te g P c' :=
  ⟨⟨e.lt h.1.1, e.lt h.1.2⟩, fun hH => by rw [← h.2 hH]; unfold ptAt; rw [e.val _ h.1.1, e.val _ h.1.2]⟩

theorem EntH.text {n : ℕ} {te : G → ZMod p × ZMod p} {q : FpElem p} {x : ZMod Q × G} {e : FpElemVar p × (ℕ × ℕ)}
    {c c' : Circ p} (h : EntH H te q x e c) (ex : TExt n c c') : EntH H te q x e c' := ⟨Hol.text h.1 ex, h.2.text ex⟩

theorem constVar_store {c : Circ p} (hc : WF c) (x : ZMod p) :
    Spec (createConstantVariable x) c True (fun v c' => v < c'.numVars ∧ c'.val v = x) (fun v w => w v = x) := by
  unfold createConstantVariable
  refine Spec.bind (createVariable_spec hc x True) (fun _ _ _ => trivial) hc ?_
  rintro v c1 e1 ⟨hv, hx⟩
  refine Spec.bind (enforceConstant_spec e1.wf v x) (fun _ _ _ => ⟨hv, hx⟩) e1.wf ?_
  rintro _ c2 e2 -
  exact Spec.pure e2.wf ⟨e2.lt hv, by rw [e2.val v hv, hx]⟩ (fun w _ _ h _ => h)

theorem constPt_spec {te : G → ZMod p × ZMod p} {c : Circ p} (hc : WF c) {P : ZMod p × ZMod p} {g : G} (hg : P = te g) :
    Spec (createConstantPointVariable P) c H (fun v c' => HolP H te g v c') (fun v w => ptAt w v = te g) := by
  unfold createConstantPointVariable
  refine Spec.bind (constVar_store hc P.1) (fun _ _ _ => trivial) hc ?_
  rintro x c1 e1 ⟨hx, vx⟩
  refine Spec.bind (constVar_store e1.wf P.2) (fun _ _ _ => trivial) e1.wf ?_
  rintro y c2 e2 ⟨hy, vy⟩
  refine Spec.pure e2.wf ⟨⟨e2.lt hx, hy⟩, fun _ => ?_⟩ ?_
  · rw [← hg]
    unfold ptAt
    rw [e2.val _ hx, vx, vy]
  intro w _ _ h1 h2
  rw [← hg]
  unfold ptAt
  rw [h1, h2]

variable [AddCommGroup G] [Module (ZMod Q) G]

/-- the sum of the multiples -/
def dotG (l : List (ZMod Q × G)) : G := (l.map fun x => x.1 • x.2).sum

theorem dotG_append (l m : List (ZMod Q × G)) : dotG (l ++ m) = dotG l + dotG m := by
  simp [dotG]

theorem zip_smul {E : EdGroup (ZMod p)} (τ : G →+ E.Pt) (ns : List ℕ) : ∀ gs : List G,
    (List.zipWith (fun n (P : E.Pt) => n • P) ns (gs.map τ)).sum =
      τ (dotG ((ns.map fun n : ℕ => (n : ZMod Q)).zip gs)) := by
  induction ns with
  | nil => intro gs; simp [dotG]
  | cons n ns ih =>
    intro gs
    cases gs with
    | nil => simp [dotG]
    | cons g gs =>
      simp only [List.map_cons, List.zipWith_cons_cons, List.sum_cons, List.zip_cons_cons, dotG, map_add]
      rw [ih gs, Nat.cast_smul_eq_nsmul, map_nsmul]
      rfl

/-- the parameters of the multi-scalar multiplication, with `N` evaluations -/
structure MsmPar (T : TE p) (E : EdGroup (ZMod p)) (I : Info p) (Q k N : ℕ) : Prop where
  on : OnTE T E
  r0 : T.r ≠ 0
  window : 2 ^ msmWindow (Nat.size T.r) ≤ T.r
  q : Q < 2 ^ windowBits (Nat.size T.r)
  wide : 2 ^ windowBits (Nat.size T.r) + N * (2 ^ k * 2 ^ (2 * I.mod.m)) ≤ p

variable {T : TE p} {E : EdGroup (ZMod p)} {N : ℕ}

theorem msm_te (M : MsmPar T E I Q k (N + 1)) (τ : G →+ E.Pt) {bases : List (ℕ × ℕ)} {scalars : List ℕ}
    (hl : bases.length = scalars.length) (hne : bases ≠ []) {c : Circ p} (hc : TWF bases.length c) {gs : List G}
    (hP : List.Forall₂ (fun P g => HolP H (fun g => (τ g).1) g P c) bases gs) (hS : ∀ s ∈ scalars, s < c.numVars)
    (hlt : H → ∀ s ∈ scalars, (c.val s).val < 2 ^ windowBits (Nat.size T.r)) :
    TSpec bases.length (msm T bases scalars) c H (fun v c' => PIn c' v)
      (fun v w => ∀ gs : List G, List.Forall₂ (fun P g => ptAt w P = (τ g).1) bases gs →
        (∀ s ∈ scalars, (w s).val < 2 ^ windowBits (Nat.size T.r)) ∧
        ptAt w v = (τ (dotG ((scalars.map fun s => (((w s).val : ℕ) : ZMod Q)).zip gs))).1) := by
  have hwp : 2 ^ windowBits (Nat.size T.r) < p := by
    have := M.wide
    have : 0 < (N + 1) * (2 ^ k * 2 ^ (2 * I.mod.m)) := by positivity
    omega
  refine TSpec.conseq hc.wf (msm_tspec M.on (by rw [ne_eq, Nat.size_eq_zero]; exact M.r0) hl hne M.window hwp hc ?_ hS) ?_
    (fun _ _ _ h => h) ?_
  · intro b hb
    obtain ⟨i, hi, rfl⟩ := List.getElem_of_mem hb
    exact ((List.forall₂_iff_get.1 hP).2 i hi (by rw [← hP.length_eq]; exact hi)).1
  · intro hH _ _
    refine ⟨fun b hb => ?_, hlt hH⟩
    obtain ⟨i, hi, rfl⟩ := List.getElem_of_mem hb
    have := ((List.forall₂_iff_get.1 hP).2 i hi (by rw [← hP.length_eq]; exact hi)).2 hH
    simp only [List.get_eq_getElem] at this
    rw [this]
    exact (τ _).2
  · intro v w _ _ q gs hgs
    have hm : ∀ {bs : List (ℕ × ℕ)} {gs : List G}, List.Forall₂ (fun P g => ptAt w P = (τ g).1) bs gs →
        bs.map (ptAt w) = (gs.map τ).map (fun P : E.Pt => P.1) := by
      intro bs gs h
      induction h with
      | nil => rfl
      | cons h1 _ ih => rw [List.map_cons, List.map_cons, List.map_cons, h1, ih]
    obtain ⟨q1, q2⟩ := q (gs.map τ) (hm hgs)
    refine ⟨q1, ?_⟩
    rw [q2, zip_smul (Q := Q), List.map_map]
    rfl

/-- the first point -/
def inner1 (u bl : ZMod Q) (op sh g : G) : G := op + u • sh + bl • g

/-- the second point -/
def inner2 (L : List (ZMod Q × G)) (ζ nu ev bl : ZMod Q) (op sh g βg : G) : G :=
  dotG L + ζ • op + nu • sh - ev • g + bl • βg

theorem felt_val (h : Par I Q k) {x : FpElemVar p} (mx : x.Match I.mod) {w : ℕ → ZMod p} {a : ZMod Q}
    (hx : Ew I.mod w a x) : (((x.felt w).val : ℕ) : ZMod Q) = a := by
  have h1 := num_lt hx.1
  have h2 : 2 ^ (2 * I.mod.m) ≤ p := (h.mul.pow_le (by omega)).le
  rw [felt_num h mx, ZMod.val_natCast_of_lt (by omega)]
  exact hx.2

theorem lin_val (M : MsmPar T E I Q k (N + 1)) {x : FpElemVar p} (mx : x.Match I.mod) {w : ℕ → ZMod p} {a : ZMod Q}
    (hx : Lin I Q k (N + 1) w a x) (hlt : (x.felt w).val < 2 ^ windowBits (Nat.size T.r)) :
    (((x.felt w).val : ℕ) : ZMod Q) = a := by
  obtain ⟨A, hA, B, hB, e1, e2⟩ := hx
  have hw := M.wide
  have ef : w x.v0 + I.mod.tpm * w x.v1 = (((x.felt w).val : ℕ) : ZMod p) := by
    rw [ZMod.natCast_val, ZMod.cast_id, ← mx.2]; rfl
  rw [ef, ← Nat.cast_add] at e1
  have h2 := congrArg ZMod.val e1
  rw [ZMod.val_natCast_of_lt (by omega), ZMod.val_natCast_of_lt (by
    have : 0 < 2 ^ windowBits (Nat.size T.r) := by positivity
    omega)] at h2
  rw [← h2, Nat.cast_add] at e2
  exact add_right_cancel e2

theorem felt_map (h : Par I Q k) {te : G → ZMod p × ZMod p} {w : ℕ → ZMod p} {l : List (FpElemVar p × (ℕ × ℕ))}
    {L : List (ZMod Q × G)} (hL : List.Forall₂ (fun e v => EntW te I.mod w v e) l L) (hm : ∀ e ∈ l, e.1.Match I.mod) :
    (l.map Prod.fst).map ((fun z => ((z.val : ℕ) : ZMod Q)) ∘ fun x => x.felt w) = L.map Prod.fst := by
  induction hL with
  | nil => rfl
  | cons h1 _ ih =>
    rw [List.map_cons, List.map_cons, List.map_cons, ih (fun e he => hm e (by simp [he]))]
    congr 1
    exact felt_val h (hm _ (by simp)) h1.1

theorem map_snd_rel {A B C D : Type} {R : B → D → Prop} {S : A × B → C × D → Prop} {l : List (A × B)} {m : List (C × D)}
    (hS : ∀ x y, S x y → R x.2 y.2) (h : List.Forall₂ S l m) : List.Forall₂ R (l.map Prod.snd) (m.map Prod.snd) := by
  induction h with
  | nil => exact List.Forall₂.nil
  | cons h1 _ ih => exact List.Forall₂.cons (hS _ _ h1) ih

theorem combine_tspec (h : Par I Q k) (M : MsmPar T E I Q k (N + 1)) (τ : G →+ E.Pt) {βg g : ZMod p × ZMod p} {B0 g0 : G}
    (hg : g = (τ g0).1) (hβg : βg = (τ B0).1) {b : ProofVar p} {blind : ℕ} {x : PcsVar p} {c : Circ p} (hc : Ctx H k c)
    (ht : TWF (3 + (x.comm.length + 4)) c) {op sh : G} {L : List (ZMod Q × G)} {ζ u nx ev : ZMod Q}
    (hop : HolP H (fun g => (τ g).1) op b.opening c) (hsh : HolP H (fun g => (τ g).1) sh b.shifted c)
    (hL : List.Forall₂ (fun e v => EntH H (fun g => (τ g).1) I.mod v e c) x.comm L)
    (hζ : Hol H I.mod ζ x.ch.ζ c) (hu : Hol H I.mod u x.ch.u c) (hnx : Hol H I.mod nx x.nextPoint c)
    (hev : Acc H I.mod ev x.eval c) (hbl : blind < c.numVars)
    (hblv : H → (c.val blind).val < 2 ^ windowBits (Nat.size T.r)) :
    TSpec (3 + (x.comm.length + 4)) (combine T I βg g b blind x) c H
      (fun r c' => PIn c' r.1 ∧ PIn c' r.2)
      (fun r w => ∀ (op sh : G) (L : List (ZMod Q × G)) (ζ u nx ev : ZMod Q), ptAt w b.opening = (τ op).1 →
        ptAt w b.shifted = (τ sh).1 → List.Forall₂ (fun e v => EntW (fun g => (τ g).1) I.mod w v e) x.comm L →
        Ew I.mod w ζ x.ch.ζ → Ew I.mod w u x.ch.u → Ew I.mod w nx x.nextPoint → Lin I Q k (N + 1) w ev x.eval →
        (w blind).val < 2 ^ windowBits (Nat.size T.r) ∧
        ptAt w r.1 = (τ (inner1 u (((w blind).val : ℕ) : ZMod Q) op sh g0)).1 ∧
        ptAt w r.2 = (τ (inner2 L ζ (nx * u) ev (((w blind).val : ℕ) : ZMod Q) op sh g0 B0)).1) := by
  have hQlt := M.q
  have hneg : negPt g = (τ (-g0)).1 := by rw [hg, map_neg]; rfl
  have hone : (1 : ZMod p).val = 1 := by
    haveI : Fact (1 < p) := ⟨hp.out.one_lt⟩
    exact ZMod.val_one p
  have hwb2 : 1 < 2 ^ windowBits (Nat.size T.r) := lt_of_le_of_lt hQ.out.one_lt.le hQlt
  have hacc : ∀ {e : FpElemVar p} {a : ZMod Q} {c : Circ p}, Acc H I.mod a e c → H →
      (e.felt c.val).val < 2 ^ windowBits (Nat.size T.r) := by
    intro e a c he hH
    obtain ⟨A, hA, e1, _⟩ := he.2.2 hH
    rw [e1, ZMod.val_natCast_of_lt (lt_of_le_of_lt hA h.q_lt_p)]
    omega
  unfold combine
  refine thbind0 hc.wf (constPt_spec (te := fun g => (τ g).1) hc.wf hg) ?_
  intro gv c1 e1 hgv
  have hc1 := hc.ext e1
  have ht1 : TWF (3 + (x.comm.length + 4)) c1 := e1.text.twf (by rwa [Nat.zero_add])
  refine thbind0 e1.wf (Spec.conseq e1.wf (toVar_spec e1.wf x.ch.u) (fun _ _ _ => (hu.ext e1).1) (fun _ _ _ h => h)
    (fun _ _ _ _ h => h)) ?_
  rintro uv c2 e2 ⟨huv, huv'⟩
  have hc2 := hc1.ext e2
  have x2 := e1.trans e2
  have ht2 : TWF (3 + (x.comm.length + 4)) c2 := e2.text.twf (by rwa [Nat.zero_add])
  refine thbind e2.wf (msm_te (I := I) (k := k) M τ (bases := [b.opening, b.shifted, gv]) (scalars := [1, uv, blind]) (gs := [op, sh, g0])
    rfl (by simp) (ht2.mono (by simp)) (.cons (hop.ext x2) (.cons (hsh.ext x2) (.cons (hgv.ext e2) .nil))) ?_ ?_) ?_
  · intro s hs
    simp only [List.mem_cons, List.not_mem_nil, or_false] at hs
    rcases hs with rfl | rfl | rfl
    exacts [e2.wf.o, huv, x2.lt hbl]
  · intro hH s hs
    simp only [List.mem_cons, List.not_mem_nil, or_false] at hs
    rcases hs with rfl | rfl | rfl
    · rw [(hc2.zo hH).2, hone]; exact hwb2
    · rw [huv']; exact hacc (acc_of_hol h (hu.ext e1)) hH
    · rw [x2.val _ hbl]; exact hblv hH
  intro in1 c3 e3 hin1
  have x3 := x2.text.trans e3
  have hc3 := Ctx.text hc2 e3
  have ht3 : TWF (x.comm.length + 4) c3 := e3.twf (by simpa using ht2)
  refine thbind0 e3.wf (mul_ew h hc3 (Hol.text hnx x3) (Hol.text hu x3)) ?_
  intro t c4 e4 htv
  have hc4 := hc3.ext e4
  have ht4 : TWF (x.comm.length + 4) c4 := e4.text.twf (by rwa [Nat.zero_add])
  refine thbind0 e4.wf (constPt_spec (te := fun g => (τ g).1) e4.wf hneg) ?_
  intro gn c5 e5 hgn
  have hc5 := hc4.ext e5
  have x5 := x3.trans (e4.trans e5).text
  have ht5 : TWF (x.comm.length + 4) c5 := e5.text.twf (by rwa [Nat.zero_add])
  -- the elements
  have hL5 : List.Forall₂ (fun e v => EntH H (fun g => (τ g).1) I.mod v e c5) x.comm L := hL.imp fun _ _ g => g.text x5
  have hcomm : ∀ e ∈ x.comm, ∃ v : ZMod Q × G, EntH H (fun g => (τ g).1) I.mod v e c5 := by
    intro e he
    obtain ⟨i, hi, rfl⟩ := List.getElem_of_mem he
    exact ⟨_, (List.forall₂_iff_get.1 hL5).2 i hi (by rw [← hL5.length_eq]; exact hi)⟩
  have hall : ∀ e ∈ (x.comm ++ [(x.ch.ζ, b.opening), (t, b.shifted), (x.eval, gn)]).map Prod.fst,
      ∃ a : ZMod Q, Acc H I.mod a e c5 := by
    intro e he
    simp only [List.map_append, List.map_cons, List.map_nil, List.mem_append, List.mem_cons, List.not_mem_nil, or_false] at he
    rcases he with he | rfl | rfl | rfl
    · obtain ⟨y, hy, rfl⟩ := List.mem_map.1 he
      obtain ⟨v, hv⟩ := hcomm y hy
      exact ⟨_, acc_of_hol h hv.1⟩
    · exact ⟨_, acc_of_hol h (Hol.text hζ x5)⟩
    · exact ⟨_, acc_of_hol h (htv.ext e5)⟩
    · exact ⟨_, Acc.text hev x5⟩
  refine thbind0 e5.wf (Spec.conseq e5.wf (toVars_spec _ e5.wf (fun e he => by
    obtain ⟨a, ha⟩ := hall e he
    exact ha.1)) (fun _ _ _ => trivial) (fun _ _ _ h => h) (fun _ _ _ _ h => h)) ?_
  rintro ss c6 e6 ⟨hss, hssv⟩
  have hc6 := hc5.ext e6
  have ht6 : TWF (x.comm.length + 4) c6 := e6.text.twf (by rwa [Nat.zero_add])
  have hssl : ss.length = x.comm.length + 3 := by
    have := congrArg List.length hssv
    simpa using this
  refine thbind0 e6.wf (constPt_spec (te := fun g => (τ g).1) e6.wf hβg) ?_
  intro bv c7 e7 hbv
  have hc7 := hc6.ext e7
  have ht7 : TWF (x.comm.length + 4) c7 := e7.text.twf (by rwa [Nat.zero_add])
  have x57 := e6.trans e7
  have x7 := x5.trans x57.text
  have hbases : List.Forall₂ (fun P g => HolP H (fun g => (τ g).1) g P c7)
      ((x.comm ++ [(x.ch.ζ, b.opening), (t, b.shifted), (x.eval, gn)]).map Prod.snd ++ [bv])
      ((L ++ [(ζ, op), (nx * u, sh), (ev, -g0)]).map Prod.snd ++ [B0]) := by
    refine List.rel_append ?_ (.cons hbv .nil)
    rw [List.map_append, List.map_append]
    refine List.rel_append ?_ (.cons (hop.text x7) (.cons (hsh.text x7) (.cons (hgn.ext x57) .nil)))
    exact map_snd_rel (fun x y g => g.2.ext x57) hL5
  have hblen : ((x.comm ++ [(x.ch.ζ, b.opening), (t, b.shifted), (x.eval, gn)]).map Prod.snd ++ [bv]).length =
      x.comm.length + 4 := by simp
  have hmsm := msm_te (I := I) (k := k) M τ (scalars := ss ++ [blind]) (by rw [hblen]; simp [hssl]) (by simp)
    (by rw [hblen]; exact ht7) hbases
    (by
      intro s hs
      rcases List.mem_append.1 hs with hs | hs
      · exact e7.lt (hss s hs)
      · rw [List.mem_singleton.1 hs]; exact x7.lt hbl)
    (by
      intro hH s hs
      rcases List.mem_append.1 hs with hs | hs
      · rw [e7.val _ (hss s hs)]
        have : c6.val s ∈ ss.map c6.val := List.mem_map.2 ⟨s, hs, rfl⟩
        rw [hssv] at this
        obtain ⟨e, he, hee⟩ := List.mem_map.1 this
        obtain ⟨a, ha⟩ := hall e he
        rw [← hee]
        exact hacc ha hH
      · rw [List.mem_singleton.1 hs, x7.val _ hbl]; exact hblv hH)
  rw [hblen] at hmsm
  refine TSpec.mono (Nat.add_zero _).le (thbind e7.wf hmsm ?_)
  intro in2 c8 e8 hin2
  refine TSpec.pure e8.wf ⟨⟨?_, ?_⟩, hin2⟩ ?_
  · exact e8.lt (x57.lt (e5.lt (e4.lt hin1.1)))
  · exact e8.lt (x57.lt (e5.lt (e4.lt hin1.2)))
  · intro w hz ho q8 q7 q6 q5 q4 q3 q2 q1 op sh L' ζ u nx ev kop ksh kL kζ ku knx kev
    obtain ⟨g1, g2⟩ := q3 [op, sh, g0] (.cons kop (.cons ksh (.cons q1 .nil)))
    have kt := q4 _ _ knx ku
    have hblw : (w blind).val < 2 ^ windowBits (Nat.size T.r) := g1 blind (by simp)
    have kpts : List.Forall₂ (fun P g => ptAt w P = (τ g).1)
        ((x.comm ++ [(x.ch.ζ, b.opening), (t, b.shifted), (x.eval, gn)]).map Prod.snd ++ [bv])
        ((L' ++ [(ζ, op), (nx * u, sh), (ev, -g0), ((((w blind).val : ℕ) : ZMod Q), B0)]).map Prod.snd) := by
      rw [List.map_append, List.map_append, List.append_assoc]
      refine List.rel_append ?_ (.cons kop (.cons ksh (.cons q5 (.cons q7 .nil))))
      exact map_snd_rel (fun x y g => g.2) kL
    obtain ⟨g3, g4⟩ := q8 _ kpts
    refine ⟨hblw, ?_, ?_⟩
    · rw [g2]
      congr 2
      simp only [List.map_cons, List.map_nil, List.zip_cons_cons, List.zip_nil_right, dotG, List.sum_cons, List.sum_nil, add_zero]
      rw [ho, hone, q2, felt_val h hu.2.1 ku, Nat.cast_one, one_smul, inner1, add_assoc]
    · rw [g4]
      have hscal : ((ss ++ [blind]).map fun s => (((w s).val : ℕ) : ZMod Q)) =
          (L' ++ [(ζ, op), (nx * u, sh), (ev, -g0), ((((w blind).val : ℕ) : ZMod Q), B0)]).map Prod.fst := by
        have hs1 : ss.map (fun s => (((w s).val : ℕ) : ZMod Q)) = (ss.map w).map (fun z => ((z.val : ℕ) : ZMod Q)) := by
          rw [List.map_map]; rfl
        have hev' : (x.eval.felt w).val < 2 ^ windowBits (Nat.size T.r) := by
          have : x.eval.felt w ∈ ss.map w := by rw [q6]; simp
          obtain ⟨s, hs, hse⟩ := List.mem_map.1 this
          rw [← hse]
          exact g3 s (by simp [hs])
        rw [List.map_append, hs1, q6, List.map_map, List.map_append, List.map_append, List.map_append]
        have hk : (x.comm.map Prod.fst).map ((fun z => ((z.val : ℕ) : ZMod Q)) ∘ fun x => x.felt w) = L'.map Prod.fst := by
          have hm : ∀ e ∈ x.comm, e.1.Match I.mod := fun e he => by
            obtain ⟨v, hv⟩ := hcomm e he
            exact hv.1.2.1
          exact felt_map h kL hm
        rw [hk, List.append_assoc]
        congr 1
        simp only [List.map_cons, List.map_nil, Function.comp, List.cons_append, List.nil_append]
        rw [felt_val h hζ.2.1 kζ, felt_val h htv.2.1 kt, lin_val M hev.2.1 kev hev']
      rw [hscal, List.zip_map']
      congr 2
      simp only [List.map_id']
      rw [dotG_append, inner2]
      simp only [dotG, List.map_cons, List.map_nil, List.sum_cons, List.sum_nil, add_zero, smul_neg]
      abel

end

end Verif.Circuit.VerifierAgg
