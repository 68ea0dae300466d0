import Verif.Circuit.Msm
import Verif.Circuit.Tables
import Verif.Circuit.EccMul
import Verif.Circuit.EmulatedAdd
import Verif.Circuit.ModArithAdd

/-!
# Specifications of the multi-scalar multiplication gadgets
-/

set_option linter.unusedSectionVars false

namespace Verif.Circuit

variable {p : ℕ} [Fact p.Prime]

/-- `Σ b ^ j • l[j]` -/
def ptHorner {G : Type} [AddCommGroup G] (b : ℕ) : List G → G
  | [] => 0
  | x :: xs => x + b • ptHorner b xs

theorem ptHorner_add {G : Type} [AddCommGroup G] (b : ℕ) (xs : List G) : ∀ ys : List G, xs.length = ys.length →
    ptHorner b (List.zipWith (· + ·) xs ys) = ptHorner b xs + ptHorner b ys := by
  induction xs with
  | nil =>
    intro ys h
    have : ys = [] := by simpa using h.symm
    subst this; simp [ptHorner]
  | cons x xs ih =>
    intro ys h
    cases ys with
    | nil => simp at h
    | cons y ys =>
      simp only [List.zipWith_cons_cons, ptHorner]
      rw [ih ys (by simpa using h), smul_add]
      abel

theorem ptHorner_smul {G : Type} [AddCommGroup G] (b : ℕ) (P : G) (ns : List ℕ) :
    ptHorner b (ns.map (· • P)) = horner b ns • P := by
  induction ns with
  | nil => simp [ptHorner, horner]
  | cons n ns ih =>
    simp only [List.map_cons, ptHorner, horner, ih]
    rw [add_smul, mul_smul]

theorem windowValues_eq (c m n : ℕ) : windowValues c m n = chunksLE c m n := by
  induction m generalizing n with
  | zero => rfl
  | succ m ih => simp only [windowValues, chunksLE, ih]

theorem windowValues_length (c m n : ℕ) : (windowValues c m n).length = m := by
  induction m generalizing n with
  | zero => rfl
  | succ m ih => simp only [windowValues, List.length_cons, ih]

theorem windowValues_lt (c m n : ℕ) : ∀ d ∈ windowValues c m n, d < 2 ^ c := by
  induction m generalizing n with
  | zero => intro d hd; cases hd
  | succ m ih =>
    intro d hd
    rcases List.mem_cons.1 hd with rfl | hd
    · exact Nat.mod_lt _ (by positivity)
    · exact ih _ d hd

theorem horner_windowValues (c m n : ℕ) : horner (2 ^ c) (windowValues c m n) = n % 2 ^ (c * m) := by
  induction m generalizing n with
  | zero => simp [windowValues, horner, Nat.mod_one]
  | succ m ih =>
    simp only [windowValues, horner, ih]
    rw [show c * (m + 1) = c + c * m by ring, pow_add, Nat.mod_mul]

theorem edSmul_val {K : TE p} {E : EdGroup (ZMod p)} (hE : OnTE K E) (n : ℕ) (P : E.Pt) :
    edSmul K n P.1 = (n • P).1 := by
  induction n with
  | zero => rw [zero_nsmul]; rfl
  | succ n ih =>
    rw [edSmul, ih, succ_nsmul', E.add_val, hE.1, hE.2]

theorem PIn.text {k : ℕ} {c c' : Circ p} {P : ℕ × ℕ} (h : PIn c P) (e : TExt k c c') : PIn c' P :=
  ⟨e.lt h.1, e.lt h.2⟩

theorem ptAt_text {k : ℕ} {c c' : Circ p} {P : ℕ × ℕ} (e : TExt k c c') (h : PIn c P) :
    ptAt c'.val P = ptAt c.val P := by
  unfold ptAt; rw [e.val _ h.1, e.val _ h.2]

/-! ## `unwrap` -/

theorem orPanic_ok {α : Type} {m : Build p α} {c c' : Circ p} {v : α} (h : orPanic m c = .ok (v, c')) :
    m c = .ok (v, c') := by
  unfold orPanic at h
  split at h
  · rename_i x hx; rw [hx]; exact h
  · cases h

theorem Spec.orPanic {α : Type} {m : Build p α} {c : Circ p} {C : Prop} {B : α → Circ p → Prop}
    {R : α → (ℕ → ZMod p) → Prop} (h : Spec m c C B R) : Spec (orPanic m) c C B R :=
  ⟨fun v c' hm => h.sound v c' (orPanic_ok hm), fun hC pi hs => by
    obtain ⟨v, c', h1, h2⟩ := h.complete hC pi hs
    exact ⟨v, c', by unfold Verif.Circuit.orPanic; rw [h1], h2⟩⟩

theorem Rel.orPanic {α : Type} {m m' : Build p α} (h : Rel m m') : Rel (orPanic m) (orPanic m') :=
  fun c d hs v c' v' d' h1 h2 => h c d hs v c' v' d' (orPanic_ok h1) (orPanic_ok h2)

/-! ## Decomposition -/

theorem decomposeWith_spec {cir : Circ p} (hc : WF cir) (ds : List (ZMod p)) (s c : ℕ) :
    Spec (decomposeWith ds s c) cir
      (ds ≠ [] ∧ s < cir.numVars ∧ cir.val s = horner ((2 ^ c : ℕ) : ZMod p) ds)
      (fun ws c' => ws.length = ds.length ∧ (∀ v ∈ ws, v < c'.numVars) ∧ ws.map c'.val = ds)
      (fun ws w => w s = horner ((2 ^ c : ℕ) : ZMod p) (ws.map w)) := by
  unfold decomposeWith
  refine Spec.bind (createVars_spec ds hc) (fun _ _ _ => trivial) hc ?_
  rintro ws c1 e1 ⟨hl, hb, hv⟩
  refine Spec.bind (decompositionGate_spec e1.wf ws hb s _) ?_ e1.wf ?_
  · rintro ⟨⟨h1, h2, h3⟩, -⟩ - -
    refine ⟨?_, e1.lt h2, ?_⟩
    · rintro rfl
      simp at hl
      exact h1 (by simpa using hl.symm)
    · rw [hv, e1.val s h2, h3]
  rintro _ c2 e2 -
  refine Spec.pure e2.wf ⟨hl, fun v hv' => e2.lt (hb v hv'), ?_⟩ (fun w _ _ h _ => h)
  rw [← hv]
  exact List.map_congr_left fun v hv' => e2.val v (hb v hv')

theorem decomposeWith_rel (ds ds' : List (ZMod p)) (hl : ds.length = ds'.length) (s c : ℕ) :
    Rel (decomposeWith ds s c) (decomposeWith ds' s c) := by
  unfold decomposeWith
  exact Rel.bind (createVars_rel _ _ hl) fun _ => Rel.bind (decompositionGate_rel _ _ _) fun _ => Rel.pure _

/-! ## The point table -/

theorem pointTable_spec {K : TE p} {E : EdGroup (ZMod p)} (hE : OnTE K E) (base : ℕ × ℕ) (n : ℕ) :
    ∀ {c : Circ p} (_ : WF c) (last : ℕ × ℕ) (_ : PIn c base) (_ : PIn c last),
    Spec (pointTable K base n last) c
      (∃ (P : E.Pt) (j : ℕ), ptAt c.val base = P.1 ∧ ptAt c.val last = (j • P).1)
      (fun qs c' => qs.length = n ∧ ∀ q ∈ qs, PIn c' q)
      (fun qs w => ∀ (P : E.Pt) (j : ℕ), ptAt w base = P.1 → ptAt w last = (j • P).1 →
        ∀ (i : ℕ) (q : ℕ × ℕ), qs[i]? = some q → ptAt w q = ((j + 1 + i) • P).1) := by
  induction n with
  | zero =>
    intro c hc last hb hl
    unfold pointTable
    exact Spec.pure hc ⟨rfl, by simp⟩ (fun w _ _ P j _ _ i q h => by simp at h)
  | succ n ih =>
    intro c hc last hb hl
    unfold pointTable
    refine Spec.bind (eccAdd_group hc hE base last) ?_ hc ?_
    · rintro ⟨P, j, h1, h2⟩ - -
      exact ⟨⟨hb, hl⟩, P, j • P, h1, h2⟩
    rintro q c1 e1 hq
    refine Spec.bind (ih e1.wf q (hb.ext e1) hq) ?_ e1.wf ?_
    · rintro ⟨⟨P, j, h1, h2⟩, h3⟩ - -
      rw [← ptAt_ext e1 hb] at h1
      rw [← ptAt_ext e1 hl] at h2
      exact ⟨P, j + 1, h1, by rw [h3 P _ h1 h2, ← succ_nsmul']⟩
    rintro qs c2 e2 ⟨hqs, hqb⟩
    refine Spec.pure e2.wf ⟨by simp [hqs], ?_⟩ ?_
    · intro x hx
      rcases List.mem_cons.1 hx with rfl | hx
      · exact hq.ext e2
      · exact hqb x hx
    · intro w _ _ h2 h1 P j hP hl' i x hx
      have hq1 : ptAt w q = ((j + 1) • P).1 := by rw [h1 P _ hP hl', ← succ_nsmul']
      cases i with
      | zero =>
        simp at hx
        subst hx; exact hq1
      | succ i =>
        simp at hx
        rw [h2 P (j + 1) hP hq1 i x hx]
        congr 2
        omega

theorem pointTable_rel (K : TE p) (base : ℕ × ℕ) (n : ℕ) : ∀ last,
    Rel (pointTable K base n last) (pointTable K base n last) := by
  induction n with
  | zero => intro last; exact Rel.pure _
  | succ n ih =>
    intro last
    unfold pointTable
    exact Rel.bind (eccAdd_rel _ _ _) fun q => Rel.bind (ih q) fun _ => Rel.pure _

/-! ## The lookup points -/

theorem lookupPoints_spec (K : TE p) (base : ℕ × ℕ) (ss : List ℕ) :
    ∀ {c : Circ p} (_ : WF c) (_ : PIn c base) (_ : ∀ s ∈ ss, s < c.numVars),
    Spec (lookupPoints K base ss) c True
      (fun vs c' => vs.length = ss.length ∧ (∀ v ∈ vs, PIn c' v) ∧
        vs.map (ptAt c'.val) = ss.map (fun s => edSmul K ((c.val s).val % K.r) (ptAt c.val base)))
      (fun _ _ => True) := by
  induction ss with
  | nil =>
    intro c hc hb hs
    unfold lookupPoints
    exact Spec.pure hc ⟨rfl, by simp, rfl⟩ (fun _ _ _ => trivial)
  | cons s ss ih =>
    intro c hc hb hs
    unfold lookupPoints scalarMulValue
    have hs0 := hs s (by simp)
    have h1 : ((do
        let P ← pointWitness base
        let x ← witness s
        pure (edSmul K (x.val % K.r) P)) : Build p _) c =
        .ok (edSmul K ((c.val s).val % K.r) (ptAt c.val base), c) := by
      have g : ∀ i, i < c.numVars → (witness i : Build p _) c = .ok (c.val i, c) := by
        intro i hi; unfold witness; rw [if_neg (by omega)]
      have g' : ∀ i, i < c.numVars → (checkVar i : Build p _) c = .ok ((), c) := by
        intro i hi; unfold checkVar; rw [if_neg (by omega)]
      have hp : (pointWitness base : Build p _) c = .ok (ptAt c.val base, c) := by
        unfold pointWitness checkPoint
        rw [bind_of_ok (u := ()) (c1 := c) (by rw [bind_of_ok (g' _ hb.1)]; exact g' _ hb.2), bind_of_ok (g _ hb.1), bind_of_ok (g _ hb.2)]
        rfl
      rw [bind_of_ok hp, bind_of_ok (g _ hs0)]
      rfl
    refine Spec.of_eq h1 ?_
    refine Spec.bind (createPointVariable_spec hc _ True) (fun _ _ _ => trivial) hc ?_
    rintro v c1 e1 ⟨hv, hvv⟩
    refine Spec.bind (ih e1.wf (hb.ext e1) fun x hx => e1.lt (hs x (by simp [hx]))) (fun _ _ _ => trivial) e1.wf ?_
    rintro vs c2 e2 ⟨h3, h4, h5⟩
    refine Spec.pure e2.wf ⟨by simp [h3], ?_, ?_⟩ (fun _ _ _ _ _ => trivial)
    · intro x hx
      rcases List.mem_cons.1 hx with rfl | hx
      · exact hv.ext e2
      · exact h4 x hx
    · rw [List.map_cons, List.map_cons, h5, ptAt_ext e2 hv, hvv]
      congr 1
      refine List.map_congr_left fun x hx => ?_
      rw [e1.val x (hs x (by simp [hx])), ptAt_ext e1 hb]

theorem scalarMulValue_rel (K : TE p) (s : ℕ) (base : ℕ × ℕ) {β : Type} {f f' : ZMod p × ZMod p → Build p β}
    (hf : ∀ x y, Rel (f x) (f' y)) : Rel (scalarMulValue K s base >>= f) (scalarMulValue K s base >>= f') := by
  have key : ∀ (c : Circ p) v c', scalarMulValue K s base c = .ok (v, c') → c' = c := by
    intro c v c' h
    unfold scalarMulValue pointWitness checkPoint checkVar witness at h
    obtain ⟨_, c1, h1, h⟩ := bind_ok h
    obtain ⟨_, c2, h2, h⟩ := bind_ok h
    obtain ⟨_, c3, h3, h1⟩ := bind_ok h1
    obtain ⟨_, c4, h4, h1⟩ := bind_ok h1
    obtain ⟨_, c5, h5, h1⟩ := bind_ok h1
    obtain ⟨_, c6, h6, h3⟩ := bind_ok h3
    cases h; cases h1
    split at h6
    · cases h6
    cases h6
    split at h3
    · cases h3
    cases h3
    split at h4
    · cases h4
    cases h4
    split at h5
    · cases h5
    cases h5
    split at h2
    · cases h2
    cases h2
    rfl
  intro c d hs v c' v' d' h1 h2
  obtain ⟨x, c1, a1, h1⟩ := bind_ok h1
  obtain ⟨y, d1, b1, h2⟩ := bind_ok h2
  have e1 := key _ _ _ a1
  have e2 := key _ _ _ b1
  subst c1 d1
  exact hf x y c d hs _ _ _ _ h1 h2

theorem lookupPoints_rel (K : TE p) (base : ℕ × ℕ) (ss : List ℕ) :
    Rel (lookupPoints K base ss) (lookupPoints K base ss) := by
  induction ss with
  | nil => exact Rel.pure _
  | cons s ss ih =>
    unfold lookupPoints
    refine scalarMulValue_rel K s base fun x y => ?_
    exact Rel.bind (createPointVariable_rel _ _) fun _ => Rel.bind ih fun _ => Rel.pure _

theorem zip_mem_cases {α β : Type} {f : α → β → ℕ × ℕ × ℕ} (xs : List α) : ∀ (ys : List β) (z : ℕ × ℕ × ℕ),
    z ∈ List.zipWith f xs ys → ∃ (i : ℕ) (x : α) (y : β), xs[i]? = some x ∧ ys[i]? = some y ∧ z = f x y := by
  induction xs with
  | nil => intro ys z h; simp at h
  | cons x xs ih =>
    intro ys z h
    cases ys with
    | nil => simp at h
    | cons y ys =>
      rw [List.zipWith_cons_cons] at h
      rcases List.mem_cons.1 h with rfl | h
      · exact ⟨0, x, y, rfl, rfl, rfl⟩
      · obtain ⟨i, x', y', h1, h2, h3⟩ := ih ys z h
        exact ⟨i + 1, x', y', h1, h2, h3⟩

/-! ## One base -/

theorem windowPoints_tspec {K : TE p} {E : EdGroup (ZMod p)} (hE : OnTE K E) {cir : Circ p} (hc : TWF 1 cir) {c : ℕ}
    (h1c : 1 ≤ c) (hcp : 2 ^ c < p) (hcr : 2 ^ c ≤ K.r) (base : ℕ × ℕ) (ws : List ℕ) (hb : PIn cir base)
    (hw : ∀ v ∈ ws, v < cir.numVars) :
    TSpec 1 (windowPoints K c base ws) cir
      ((∃ P : E.Pt, ptAt cir.val base = P.1) ∧ ∀ v ∈ ws, (cir.val v).val < 2 ^ c)
      (fun ls c' => ls.length = ws.length ∧ ∀ v ∈ ls, PIn c' v)
      (fun ls w => (∀ v ∈ ws, (w v).val < 2 ^ c) ∧
        ∀ P : E.Pt, ptAt w base = P.1 → ls.map (ptAt w) = ws.map (fun v => ((w v).val • P).1)) := by
  have h2 : 2 ≤ 2 ^ c := by
    calc 2 = 2 ^ 1 := rfl
      _ ≤ 2 ^ c := Nat.pow_le_pow_right (by omega) h1c
  have hidx : ∀ (P : E.Pt) (w : ℕ → ZMod p) (qs : List (ℕ × ℕ)), w 0 = 0 → w 1 = 1 → ptAt w base = P.1 →
      (∀ (i : ℕ) (q : ℕ × ℕ), qs[i]? = some q → ptAt w q = ((1 + 1 + i) • P).1) →
      ∀ (i : ℕ) (q : ℕ × ℕ), (neutralPoint :: base :: qs)[i]? = some q → ptAt w q = (i • P).1 := by
    intro P w qs h0 h1 hP hq i q h
    match i with
    | 0 =>
      simp at h; subst h
      rw [zero_nsmul, E.zero_val]; unfold ptAt neutralPoint; rw [h0, h1]
    | 1 => simp at h; subst h; rw [one_nsmul]; exact hP
    | i + 2 =>
      simp at h
      rw [hq i q h]; congr 2; omega
  unfold windowPoints
  refine TSpec.bind0 (pointTable_spec hE base (2 ^ c - 2) hc.wf base hb hb) ?_ hc.wf ?_
  · rintro ⟨⟨P, hP⟩, -⟩ - -
    exact ⟨P, 1, hP, by rw [one_nsmul]; exact hP⟩
  rintro qs c1 e1 ⟨hql, hqb⟩
  refine TSpec.bind0 (lookupPoints_spec K base ws e1.wf (hb.ext e1) fun v hv => e1.lt (hw v hv)) (fun _ _ _ => trivial)
    e1.wf ?_
  rintro ls c2 e2 ⟨hll, hlb, hlv⟩
  have hc2 : TWF 1 c2 := by
    have := (e1.trans e2).text.twf (j := 1) (by simpa using hc)
    exact this
  have hbt : ∀ x ∈ neutralPoint :: base :: qs, x.1 < c2.numVars ∧ x.2 < c2.numVars := by
    intro x hx
    rcases List.mem_cons.1 hx with rfl | hx
    · exact ⟨hc2.wf.z, hc2.wf.o⟩
    · rcases List.mem_cons.1 hx with rfl | hx
      · exact hb.ext (e1.trans e2)
      · exact (hqb x hx).ext e2
  have hbl : ∀ x ∈ List.zipWith (fun s (P : ℕ × ℕ) => (s, P.1, P.2)) ws ls,
      x.1 < c2.numVars ∧ x.2.1 < c2.numVars ∧ x.2.2 < c2.numVars := by
    intro x hx
    obtain ⟨i, s, P, h3, h4, rfl⟩ := zip_mem_cases _ _ _ hx
    exact ⟨(e1.trans e2).lt (hw s (List.mem_of_getElem? h3)), hlb P (List.mem_of_getElem? h4)⟩
  unfold createPointLookupGates
  refine TSpec.bind (k := 1) (k' := 0) (createTable_tspec hc2 hbl hbt) ?_ hc2.wf ?_
  · rintro ⟨⟨⟨⟨P, hP⟩, hlt⟩, hq⟩, -⟩ h0 h1 x hx
    obtain ⟨i, s, L, h3, h4, rfl⟩ := zip_mem_cases _ _ _ hx
    have hs := hw s (List.mem_of_getElem? h3)
    have hvlt := hlt s (List.mem_of_getElem? h3)
    set j := (cir.val s).val with hj
    have htl : (neutralPoint :: base :: qs).length = 2 ^ c := by simp [hql]; omega
    have hq' : ∀ (i : ℕ) (q : ℕ × ℕ), qs[i]? = some q → ptAt c1.val q = ((1 + 1 + i) • P).1 :=
      hq P 1 (by rw [ptAt_ext e1 hb]; exact hP) (by rw [one_nsmul, ptAt_ext e1 hb]; exact hP)
    have hjt : (neutralPoint :: base :: qs)[j]? = some ((neutralPoint :: base :: qs)[j]'(by omega)) :=
      List.getElem?_eq_getElem (by omega)
    have h20 : c2.val 0 = 0 := h0
    have h21 : c2.val 1 = 1 := h1
    have hval := hidx P c2.val qs h20 h21 (by rw [ptAt_ext (e1.trans e2) hb]; exact hP) (by
      intro i q hiq
      rw [ptAt_ext e2 (hqb q (List.mem_of_getElem? hiq))]
      exact hq' i q hiq) j _ hjt
    have hL : ptAt c2.val L = (j • P).1 := by
      have h5 := congrArg (fun l => l[i]?) hlv
      simp only [List.getElem?_map, h3, h4, Option.map_some] at h5
      rw [Option.some.inj h5, ptAt_ext e1 hb, hP, e1.val s hs, ← hj, Nat.mod_eq_of_lt (by omega), edSmul_val hE]
    refine ⟨j, _, hjt, ?_, ?_, ?_⟩
    · simp only
      rw [(e1.trans e2).val s hs, hj, ZMod.natCast_zmod_val]
    · exact (congrArg Prod.fst (hL.trans hval.symm) :)
    · exact (congrArg Prod.snd (hL.trans hval.symm) :)
  rintro _ c3 e3 -
  refine TSpec.pure e3.wf ⟨hll, fun v hv => (hlb v hv).text e3⟩ ?_
  intro w h0 h1 hlook _ hq
  have htl : (neutralPoint :: base :: qs).length = 2 ^ c := by simp [hql]; omega
  have key : ∀ (i s : ℕ) (L : ℕ × ℕ), ws[i]? = some s → ls[i]? = some L → ∃ (j : ℕ) (t : ℕ × ℕ),
      (neutralPoint :: base :: qs)[j]? = some t ∧ w s = (j : ZMod p) ∧ j < 2 ^ c ∧ ptAt w L = ptAt w t := by
    intro i s L h3 h4
    have hm : (s, L.1, L.2) ∈ List.zipWith (fun s (P : ℕ × ℕ) => (s, P.1, P.2)) ws ls :=
      List.mem_iff_getElem?.2 ⟨i, by rw [List.getElem?_zipWith]; simp [h3, h4]⟩
    obtain ⟨j, t, ht, g1, g2, g3⟩ := hlook _ hm
    have hjl : j < 2 ^ c := by rw [← htl]; exact (List.getElem?_eq_some_iff.1 ht).1
    exact ⟨j, t, ht, g1, hjl, Prod.ext g2 g3⟩
  have key2 : ∀ (i s : ℕ) (L : ℕ × ℕ), ws[i]? = some s → ls[i]? = some L →
      (neutralPoint :: base :: qs)[(w s).val]? ≠ none ∧ (w s).val < 2 ^ c ∧
      ∀ t, (neutralPoint :: base :: qs)[(w s).val]? = some t → ptAt w L = ptAt w t := by
    intro i s L h3 h4
    obtain ⟨j, t, ht, g1, g2, g3⟩ := key i s L h3 h4
    have : (w s).val = j := by rw [g1, ZMod.val_natCast, Nat.mod_eq_of_lt (by omega)]
    rw [this]
    exact ⟨by rw [ht]; simp, g2, fun t' ht' => by rw [ht] at ht'; cases ht'; exact g3⟩
  have hget : ∀ (i s : ℕ), ws[i]? = some s → ∃ L, ls[i]? = some L := by
    intro i s h3
    have : i < ls.length := by rw [hll]; exact (List.getElem?_eq_some_iff.1 h3).1
    exact ⟨_, List.getElem?_eq_getElem this⟩
  refine ⟨?_, ?_⟩
  · intro v hv
    obtain ⟨i, hi⟩ := List.mem_iff_getElem?.1 hv
    obtain ⟨L, hL⟩ := hget i v hi
    exact (key2 i v L hi hL).2.1
  · intro P hP
    have hval := hidx P w qs h0 h1 hP (hq P 1 hP (by rw [one_nsmul]; exact hP))
    refine List.ext_getElem? fun i => ?_
    rw [List.getElem?_map, List.getElem?_map]
    cases h3 : ws[i]? with
    | none =>
      have : ls[i]? = none := by
        rw [List.getElem?_eq_none_iff] at h3 ⊢; omega
      rw [this]; rfl
    | some s =>
      obtain ⟨L, hL⟩ := hget i s h3
      obtain ⟨k1, k2, k3⟩ := key2 i s L h3 hL
      obtain ⟨t, ht⟩ := Option.ne_none_iff_exists'.1 k1
      rw [hL, Option.map_some, Option.map_some, k3 t ht, hval _ t ht]

theorem windowPoints_rel (K : TE p) (c : ℕ) (base : ℕ × ℕ) (ws : List ℕ) :
    Rel (windowPoints K c base ws) (windowPoints K c base ws) := by
  unfold windowPoints createPointLookupGates
  exact Rel.bind (pointTable_rel _ _ _ _) fun _ => Rel.bind (lookupPoints_rel _ _ _) fun _ =>
    Rel.bind (createTable_rel _ _) fun _ => Rel.pure _

/-! ## Window sums -/

theorem addSums_spec {K : TE p} {E : EdGroup (ZMod p)} (hE : OnTE K E) (as : List (ℕ × ℕ)) :
    ∀ (bs : List (ℕ × ℕ)) {c : Circ p} (_ : WF c) (_ : as.length = bs.length) (_ : ∀ a ∈ as, PIn c a)
      (_ : ∀ b ∈ bs, PIn c b),
    Spec (addSums K as bs) c
      (∃ Ps Qs : List E.Pt, as.map (ptAt c.val) = Ps.map (fun P : E.Pt => P.1) ∧ bs.map (ptAt c.val) = Qs.map (fun P : E.Pt => P.1))
      (fun vs c' => vs.length = as.length ∧ ∀ v ∈ vs, PIn c' v)
      (fun vs w => ∀ Ps Qs : List E.Pt, as.map (ptAt w) = Ps.map (fun P : E.Pt => P.1) → bs.map (ptAt w) = Qs.map (fun P : E.Pt => P.1) →
        vs.map (ptAt w) = (List.zipWith (· + ·) Ps Qs).map (fun P : E.Pt => P.1)) := by
  induction as with
  | nil =>
    intro bs c hc hl ha hb
    unfold addSums
    refine Spec.pure hc ⟨rfl, by simp⟩ ?_
    intro w _ _ Ps Qs h1 _
    have : Ps = [] := by simpa using h1.symm
    subst this; simp
  | cons a as ih =>
    intro bs c hc hl ha hb
    cases bs with
    | nil => simp at hl
    | cons b bs =>
      unfold addSums
      have ha0 := ha a (by simp)
      have hb0 := hb b (by simp)
      have hxs : ∀ x ∈ as, PIn c x := fun x hx => ha x (by simp [hx])
      have hys : ∀ x ∈ bs, PIn c x := fun x hx => hb x (by simp [hx])
      refine Spec.bind (eccAdd_group hc hE a b) ?_ hc ?_
      · rintro ⟨Ps, Qs, h1, h2⟩ - -
        cases Ps with
        | nil => simp at h1
        | cons P Ps =>
          cases Qs with
          | nil => simp at h2
          | cons Q Qs =>
            simp only [List.map_cons, List.cons.injEq] at h1 h2
            exact ⟨⟨ha0, hb0⟩, P, Q, h1.1, h2.1⟩
      rintro v c1 e1 hv
      refine Spec.bind (ih bs e1.wf (by simpa using hl) (fun x hx => (hxs x hx).ext e1) (fun x hx => (hys x hx).ext e1))
        ?_ e1.wf ?_
      · rintro ⟨⟨Ps, Qs, h1, h2⟩, -⟩ - -
        cases Ps with
        | nil => simp at h1
        | cons P Ps =>
          cases Qs with
          | nil => simp at h2
          | cons Q Qs =>
            simp only [List.map_cons, List.cons.injEq] at h1 h2
            refine ⟨Ps, Qs, ?_, ?_⟩
            · rw [← h1.2]; exact List.map_congr_left fun x hx => ptAt_ext e1 (hxs x hx)
            · rw [← h2.2]; exact List.map_congr_left fun x hx => ptAt_ext e1 (hys x hx)
      rintro vs c2 e2 ⟨h3, h4⟩
      refine Spec.pure e2.wf ⟨by simp [h3], ?_⟩ ?_
      · intro x hx
        rcases List.mem_cons.1 hx with rfl | hx
        · exact hv.ext e2
        · exact h4 x hx
      · intro w _ _ g2 g1 Ps Qs h1 h2
        cases Ps with
        | nil => simp at h1
        | cons P Ps =>
          cases Qs with
          | nil => simp at h2
          | cons Q Qs =>
            simp only [List.map_cons, List.cons.injEq] at h1 h2
            simp only [List.map_cons, List.zipWith_cons_cons]
            rw [g1 P Q h1.1 h2.1, g2 Ps Qs h1.2 h2.2]

theorem addSums_rel (K : TE p) (as : List (ℕ × ℕ)) : ∀ bs, Rel (addSums K as bs) (addSums K as bs) := by
  induction as with
  | nil => intro bs; unfold addSums; exact Rel.pure _
  | cons a as ih =>
    intro bs
    cases bs with
    | nil => unfold addSums; exact Rel.pure _
    | cons b bs =>
      unfold addSums
      exact Rel.bind (eccAdd_rel _ _ _) fun _ => Rel.bind (ih bs) fun _ => Rel.pure _

theorem updateSums_spec {K : TE p} {E : EdGroup (ZMod p)} (hE : OnTE K E) (b : ℕ) (sums ls : List (ℕ × ℕ))
    {c : Circ p} (hc : WF c) (hl : sums = [] ∨ sums.length = ls.length) (ha : ∀ a ∈ sums, PIn c a)
    (hb : ∀ b ∈ ls, PIn c b) :
    Spec (updateSums K sums ls) c
      (∃ Ps Qs : List E.Pt, sums.map (ptAt c.val) = Ps.map (fun P : E.Pt => P.1) ∧ ls.map (ptAt c.val) = Qs.map (fun P : E.Pt => P.1))
      (fun vs c' => vs.length = ls.length ∧ ∀ v ∈ vs, PIn c' v)
      (fun vs w => ∀ Ps Qs : List E.Pt, sums.map (ptAt w) = Ps.map (fun P : E.Pt => P.1) → ls.map (ptAt w) = Qs.map (fun P : E.Pt => P.1) →
        ∃ Rs : List E.Pt, vs.map (ptAt w) = Rs.map (fun P : E.Pt => P.1) ∧ ptHorner b Rs = ptHorner b Ps + ptHorner b Qs) := by
  unfold updateSums
  cases sums with
  | nil =>
    refine Spec.pure hc ⟨rfl, hb⟩ ?_
    intro w _ _ Ps Qs h1 h2
    have : Ps = [] := by simpa using h1.symm
    subst this
    exact ⟨Qs, h2, by simp [ptHorner]⟩
  | cons s ss =>
    have hl' : (s :: ss).length = ls.length := by
      rcases hl with h | h
      · cases h
      · exact h
    refine Spec.conseq hc (addSums_spec hE (s :: ss) ls hc hl' ha hb) (fun h _ _ => h) ?_ ?_
    · rintro v c' - ⟨h1, h2⟩
      exact ⟨h1.trans hl', h2⟩
    · intro v w _ _ h Ps Qs h1 h2
      refine ⟨_, h Ps Qs h1 h2, ptHorner_add b Ps Qs ?_⟩
      have g1 := congrArg List.length h1
      have g2 := congrArg List.length h2
      rw [List.length_map, List.length_map] at g1 g2
      omega

theorem updateSums_rel (K : TE p) (sums ls : List (ℕ × ℕ)) : Rel (updateSums K sums ls) (updateSums K sums ls) := by
  unfold updateSums
  split
  · exact Rel.pure _
  · exact addSums_rel K _ _

/-! ## The fold over the windows -/

theorem doublings_spec {K : TE p} {E : EdGroup (ZMod p)} (hE : OnTE K E) (n : ℕ) :
    ∀ (t : ℕ × ℕ) {c : Circ p} (_ : WF c) (_ : PIn c t),
    Spec (doublings K n t) c (∃ P : E.Pt, ptAt c.val t = P.1) (fun v c' => PIn c' v)
      (fun v w => ∀ P : E.Pt, ptAt w t = P.1 → ptAt w v = ((2 ^ n : ℕ) • P).1) := by
  induction n with
  | zero =>
    intro t c hc ht
    unfold doublings
    exact Spec.pure hc ht (fun w _ _ P h => by rw [pow_zero, one_nsmul]; exact h)
  | succ n ih =>
    intro t c hc ht
    unfold doublings
    refine Spec.bind (eccAdd_group hc hE t t).orPanic ?_ hc ?_
    · rintro ⟨P, hP⟩ - -
      exact ⟨⟨ht, ht⟩, P, P, hP, hP⟩
    rintro v c1 e1 hv
    refine Spec.conseq e1.wf (ih v e1.wf hv) ?_ (fun _ _ _ h => h) ?_
    · rintro ⟨⟨P, hP⟩, h⟩ - -
      rw [← ptAt_ext e1 ht] at hP
      exact ⟨_, h P P hP hP⟩
    · intro u w _ _ h1 h2 P hP
      rw [h1 (P + P) (h2 P P hP hP), ← two_nsmul, ← mul_nsmul, pow_succ, mul_comm]

theorem doublings_rel (K : TE p) (n : ℕ) : ∀ t, Rel (doublings K n t) (doublings K n t) := by
  induction n with
  | zero => intro t; exact Rel.pure _
  | succ n ih =>
    intro t
    unfold doublings
    exact Rel.bind (Rel.orPanic (eccAdd_rel _ _ _)) fun t' => ih t'

theorem foldWindows_spec {K : TE p} {E : EdGroup (ZMod p)} (hE : OnTE K E) (cw : ℕ) (ss : List (ℕ × ℕ)) :
    ∀ (t : ℕ × ℕ) {c : Circ p} (_ : WF c) (_ : PIn c t) (_ : ∀ s ∈ ss, PIn c s),
    Spec (foldWindows K cw ss t) c
      ((∃ P : E.Pt, ptAt c.val t = P.1) ∧ ∃ Ps : List E.Pt, ss.map (ptAt c.val) = Ps.map (fun P : E.Pt => P.1))
      (fun v c' => PIn c' v)
      (fun v w => ∀ (P : E.Pt) (Ps : List E.Pt), ptAt w t = P.1 → ss.map (ptAt w) = Ps.map (fun P : E.Pt => P.1) →
        ptAt w v = (Ps.foldl (fun a b => (2 ^ cw : ℕ) • (a + b)) P).1) := by
  induction ss with
  | nil =>
    intro t c hc ht hs
    unfold foldWindows
    refine Spec.pure hc ht ?_
    intro w _ _ P Ps h1 h2
    have : Ps = [] := by simpa using h2.symm
    subst this; exact h1
  | cons s ss ih =>
    intro t c hc ht hs
    unfold foldWindows
    have hs0 := hs s (by simp)
    have hss : ∀ x ∈ ss, PIn c x := fun x hx => hs x (by simp [hx])
    refine Spec.bind (eccAdd_group hc hE t s).orPanic ?_ hc ?_
    · rintro ⟨⟨P, hP⟩, Ps, h2⟩ - -
      cases Ps with
      | nil => simp at h2
      | cons Q Qs =>
        simp only [List.map_cons, List.cons.injEq] at h2
        exact ⟨⟨ht, hs0⟩, P, Q, hP, h2.1⟩
    rintro t1 c1 e1 ht1
    refine Spec.bind (doublings_spec hE cw t1 e1.wf ht1) ?_ e1.wf ?_
    · rintro ⟨⟨⟨P, hP⟩, Ps, h2⟩, h3⟩ - -
      cases Ps with
      | nil => simp at h2
      | cons Q Qs =>
        simp only [List.map_cons, List.cons.injEq] at h2
        exact ⟨_, h3 P Q (by rw [ptAt_ext e1 ht]; exact hP) (by rw [ptAt_ext e1 hs0]; exact h2.1)⟩
    rintro t2 c2 e2 ht2
    have e02 := e1.trans e2
    refine Spec.conseq e2.wf (ih t2 e2.wf ht2 fun x hx => (hss x hx).ext e02) ?_ (fun _ _ _ h => h) ?_
    · rintro ⟨⟨⟨⟨P, hP⟩, Ps, h2⟩, h3⟩, h4⟩ - -
      cases Ps with
      | nil => simp at h2
      | cons Q Qs =>
        simp only [List.map_cons, List.cons.injEq] at h2
        have g := h3 P Q (by rw [ptAt_ext e1 ht]; exact hP) (by rw [ptAt_ext e1 hs0]; exact h2.1)
        refine ⟨⟨_, h4 _ (by rw [ptAt_ext e2 ht1]; exact g)⟩, Qs, ?_⟩
        rw [← h2.2]
        exact List.map_congr_left fun x hx => ptAt_ext e02 (hss x hx)
    · intro u w _ _ h3 h2 h1 P Ps hP hPs
      cases Ps with
      | nil => simp at hPs
      | cons Q Qs =>
        simp only [List.map_cons, List.cons.injEq] at hPs
        rw [h3 _ Qs (h2 _ (h1 P Q hP hPs.1)) hPs.2]
        rfl

theorem foldWindows_rel (K : TE p) (cw : ℕ) (ss : List (ℕ × ℕ)) : ∀ t,
    Rel (foldWindows K cw ss t) (foldWindows K cw ss t) := by
  induction ss with
  | nil => intro t; exact Rel.pure _
  | cons s ss ih =>
    intro t
    unfold foldWindows
    exact Rel.bind (Rel.orPanic (eccAdd_rel _ _ _)) fun t1 => Rel.bind (doublings_rel _ _ _) fun t2 => ih t2

theorem foldl_reverse_horner {G : Type} [AddCommGroup G] (b : ℕ) (Ps : List G) :
    Ps.reverse.foldl (fun a x => b • (a + x)) 0 = b • ptHorner b Ps := by
  induction Ps with
  | nil => simp [ptHorner]
  | cons P Ps ih =>
    rw [List.reverse_cons, List.foldl_append, ih]
    simp only [List.foldl_cons, List.foldl_nil, ptHorner]
    rw [add_comm]

theorem finishSums_spec {K : TE p} {E : EdGroup (ZMod p)} (hE : OnTE K E) (cw : ℕ) (sums : List (ℕ × ℕ))
    {c : Circ p} (hc : WF c) (hs : ∀ s ∈ sums, PIn c s) :
    Spec (finishSums K cw sums) c
      (sums ≠ [] ∧ ∃ Ps : List E.Pt, sums.map (ptAt c.val) = Ps.map (fun P : E.Pt => P.1))
      (fun v c' => PIn c' v)
      (fun v w => ∀ Ps : List E.Pt, sums.map (ptAt w) = Ps.map (fun P : E.Pt => P.1) →
        ptAt w v = (ptHorner (2 ^ cw) Ps).1) := by
  unfold finishSums
  cases sums with
  | nil => exact Spec.fail (fun h => h.1 rfl)
  | cons lo rest =>
    have hlo := hs lo (by simp)
    have hr : ∀ x ∈ rest, PIn c x := fun x hx => hs x (by simp [hx])
    refine Spec.bind (foldWindows_spec hE cw rest.reverse neutralPoint hc (PIn.neutral hc)
      fun x hx => hr x (List.mem_reverse.1 hx)) ?_ hc ?_
    · rintro ⟨-, Ps, h2⟩ h0 h1
      cases Ps with
      | nil => simp at h2
      | cons Q Qs =>
        simp only [List.map_cons, List.cons.injEq] at h2
        exact ⟨⟨0, by rw [ptAt_neutral h0 h1]; rfl⟩, Qs.reverse, by rw [List.map_reverse, h2.2, List.map_reverse]⟩
    rintro b c1 e1 hb
    refine Spec.conseq e1.wf (eccAdd_group e1.wf hE lo b) ?_ (fun _ _ _ h => h) ?_
    · rintro ⟨⟨-, Ps, h2⟩, h3⟩ h0 h1
      cases Ps with
      | nil => simp at h2
      | cons Q Qs =>
        simp only [List.map_cons, List.cons.injEq] at h2
        refine ⟨⟨hlo.ext e1, hb⟩, Q, _, by rw [ptAt_ext e1 hlo]; exact h2.1,
          h3 0 Qs.reverse (by rw [ptAt_neutral h0 h1]; rfl) ?_⟩
        rw [List.map_reverse, List.map_reverse, ← h2.2]
        congr 1
        exact List.map_congr_left fun x hx => ptAt_ext e1 (hr x hx)
    · intro v w h0 h1 h4 h3 Ps hPs
      cases Ps with
      | nil => simp at hPs
      | cons Q Qs =>
        simp only [List.map_cons, List.cons.injEq] at hPs
        have g := h3 0 Qs.reverse (by rw [ptAt_neutral h0 h1]; rfl) (by rw [List.map_reverse, hPs.2, List.map_reverse])
        rw [foldl_reverse_horner] at g
        exact h4 Q _ hPs.1 g

theorem finishSums_rel (K : TE p) (cw : ℕ) (sums : List (ℕ × ℕ)) :
    Rel (finishSums K cw sums) (finishSums K cw sums) := by
  unfold finishSums
  split
  · exact Rel.failL _ _
  · exact Rel.bind (foldWindows_rel _ _ _ _) fun _ => eccAdd_rel _ _ _

end Verif.Circuit
