import Verif.Circuit.MsmSpec

/-!
# Multi-scalar multiplication with windows

`windowLoopW` and `msmPippengerW` are the functions of `Msm.lean` with the window values given by a function of the
scalar (`Item.f`), and also returning the window variables. The model is the instance with the values of
`decompose_scalar_var` (`msmPippenger_eq`); other instances are the choices of a prover.
-/

set_option linter.unusedSectionVars false

namespace Verif.Circuit

variable {p : ℕ} [Fact p.Prime]

/-- a base, a scalar and the choice of window values -/
structure Item (p : ℕ) where
  base : ℕ × ℕ
  s : ℕ
  f : ZMod p → List (ZMod p)

/-- `windowLoop` for chosen window values -/
def windowLoopW (K : TE p) (c : ℕ) :
    List (Item p) → List (ℕ × ℕ) → Build p (List (ℕ × ℕ) × List (List ℕ))
  | [], sums => pure (sums, [])
  | x :: xs, sums => do
    let y ← witness x.s
    let ws ← decomposeWith (x.f y) x.s c
    let ls ← windowPoints K c x.base ws
    let sums' ← updateSums K sums ls
    let r ← windowLoopW K c xs sums'
    pure (r.1, ws :: r.2)

/-- `msmPippenger` for chosen window values -/
def msmPippengerW (K : TE p) (c : ℕ) (xs : List (Item p)) : Build p ((ℕ × ℕ) × List (List ℕ)) := do
  checkPairs (xs.map fun x => (x.base, x.s))
  let r ← windowLoopW K c xs []
  let v ← finishSums K c r.1
  pure (v, r.2)

/-- the honest item -/
def honestItem (c bits : ℕ) (x : (ℕ × ℕ) × ℕ) : Item p :=
  ⟨x.1, x.2, fun y => (windowValues c (windowCount c bits) y.val).map (fun n : ℕ => (n : ZMod p))⟩

theorem build_bind_assoc {α β γ : Type} (m : Build p α) (f : α → Build p β) (g : β → Build p γ) :
    ((m >>= f) >>= g) = (m >>= fun x => f x >>= g) := by
  funext c
  show Build.bind (Build.bind m f) g c = Build.bind m (fun x => Build.bind (f x) g) c
  unfold Build.bind
  cases m c <;> rfl

theorem build_pure_bind {α β : Type} (x : α) (f : α → Build p β) : ((pure x : Build p α) >>= f) = f x := rfl

theorem build_bind_pure {α : Type} (m : Build p α) : (m >>= fun x => pure x) = m := by
  funext c
  show Build.bind m Build.pure c = m c
  unfold Build.bind
  cases m c <;> rfl

theorem windowLoop_eq (K : TE p) (c : ℕ) {bits : ℕ} (hb : bits ≠ 0) (xs : List ((ℕ × ℕ) × ℕ)) : ∀ sums,
    windowLoop K c bits xs sums = (windowLoopW K c (xs.map (honestItem c bits)) sums >>= fun r => pure r.1) := by
  induction xs with
  | nil => intro sums; rfl
  | cons x xs ih =>
    intro sums
    obtain ⟨base, s⟩ := x
    simp only [windowLoop, List.map_cons, windowLoopW, decomposeScalarVar, if_neg hb, build_bind_assoc, build_pure_bind, ih,
      honestItem]

theorem msmPippenger_eq (K : TE p) {bits : ℕ} (hb : bits ≠ 0) (bases : List (ℕ × ℕ)) (scalars : List ℕ) :
    msmPippenger K bases scalars bits =
      (msmPippengerW K (msmWindow bits) ((bases.zip scalars).map (honestItem (msmWindow bits) bits)) >>=
        fun r => pure r.1) := by
  have h : ((bases.zip scalars).map (honestItem (p := p) (msmWindow bits) bits)).map (fun x => (x.base, x.s)) =
      bases.zip scalars := by
    rw [List.map_map]; exact List.map_id _
  simp only [msmPippenger, msmPippengerW, h, windowLoop_eq K _ hb, build_bind_assoc, build_pure_bind,
    build_bind_pure]

/-- the number in the windows -/
def winVal (c : ℕ) (w : ℕ → ZMod p) (ws : List ℕ) : ℕ := horner (2 ^ c) (ws.map fun v => (w v).val)

/-- the windows of one scalar -/
def WinOK (c M : ℕ) (w : ℕ → ZMod p) (x : Item p) (ws : List ℕ) : Prop :=
  ws.length = M ∧ w x.s = horner ((2 ^ c : ℕ) : ZMod p) (ws.map w) ∧ ∀ v ∈ ws, (w v).val < 2 ^ c

theorem WinOK.cast {c M : ℕ} {w : ℕ → ZMod p} {x : Item p} {ws : List ℕ} (h : WinOK c M w x ws) :
    ((winVal c w ws : ℕ) : ZMod p) = w x.s := by
  rw [h.2.1, winVal, ← horner_natCast, List.map_map]
  congr 1
  exact List.map_congr_left fun v _ => ZMod.natCast_zmod_val _

theorem WinOK.lt {c M : ℕ} {w : ℕ → ZMod p} {x : Item p} {ws : List ℕ} (h : WinOK c M w x ws) :
    winVal c w ws < 2 ^ (c * M) := by
  have := horner_lt (r := 2 ^ c) (ws.map fun v => (w v).val) (by
    intro d hd
    obtain ⟨v, hv, rfl⟩ := List.mem_map.1 hd
    exact h.2.2 v hv)
  rw [List.length_map, h.1, ← pow_mul] at this
  exact this

theorem windowLoopW_tspec {K : TE p} {E : EdGroup (ZMod p)} (hE : OnTE K E) {c : ℕ} (h1c : 1 ≤ c) (hcp : 2 ^ c < p)
    (hcr : 2 ^ c ≤ K.r) {M : ℕ} (hM : M ≠ 0) (xs : List (Item p)) :
    ∀ {cir : Circ p} (sums : List (ℕ × ℕ)) (_ : TWF xs.length cir)
      (_ : ∀ x ∈ xs, PIn cir x.base ∧ x.s < cir.numVars ∧ ∀ y, (x.f y).length = M)
      (_ : sums = [] ∨ sums.length = M) (_ : ∀ q ∈ sums, PIn cir q),
    TSpec xs.length (windowLoopW K c xs sums) cir
      ((∀ x ∈ xs, (∃ P : E.Pt, ptAt cir.val x.base = P.1) ∧
          cir.val x.s = horner ((2 ^ c : ℕ) : ZMod p) (x.f (cir.val x.s)) ∧
          ∀ d ∈ x.f (cir.val x.s), d.val < 2 ^ c) ∧
        ∃ Qs : List E.Pt, sums.map (ptAt cir.val) = Qs.map (fun P : E.Pt => P.1))
      (fun r c' => ((xs = [] → r.1 = sums) ∧ (xs ≠ [] → r.1.length = M)) ∧ (∀ q ∈ r.1, PIn c' q) ∧
        (∀ ws ∈ r.2, ∀ v ∈ ws, v < c'.numVars) ∧
        r.2.map (fun ws => ws.map c'.val) = xs.map (fun x => x.f (cir.val x.s)))
      (fun r w => List.Forall₂ (WinOK c M w) xs r.2 ∧
        ∀ Ps Qs : List E.Pt, xs.map (fun x => ptAt w x.base) = Ps.map (fun P : E.Pt => P.1) →
          sums.map (ptAt w) = Qs.map (fun P : E.Pt => P.1) →
          ∃ Rs : List E.Pt, r.1.map (ptAt w) = Rs.map (fun P : E.Pt => P.1) ∧
            ptHorner (2 ^ c) Rs =
              ptHorner (2 ^ c) Qs + (List.zipWith (fun (P : E.Pt) ws => winVal c w ws • P) Ps r.2).sum) := by
  induction xs with
  | nil =>
    intro cir sums hc hx hs hq
    unfold windowLoopW
    refine TSpec.pure hc.wf ⟨⟨fun _ => rfl, by simp⟩, hq, by simp, rfl⟩ ?_
    intro w _ _
    refine ⟨List.Forall₂.nil, fun Ps Qs _ h2 => ⟨Qs, h2, by simp⟩⟩
  | cons x xs ih =>
    intro cir sums hc hx hs hq
    obtain ⟨hxb, hxs, hxf⟩ := hx x (by simp)
    have hxl : ∀ y ∈ xs, PIn cir y.base ∧ y.s < cir.numVars ∧ ∀ z, (y.f z).length = M := fun y hy => hx y (by simp [hy])
    unfold windowLoopW
    refine TSpec.mono (k := 1 + xs.length) (by simp; omega) ?_
    have hc' : TWF (1 + xs.length) cir := hc.mono (by simp; omega)
    refine TSpec.of_eq (v := cir.val x.s) (by unfold witness; rw [if_neg (by omega)]) ?_
    refine TSpec.bind0 (decomposeWith_spec hc.wf (x.f (cir.val x.s)) x.s c) ?_ hc.wf ?_
    · rintro ⟨h, -⟩ - -
      obtain ⟨-, h2, -⟩ := h x (by simp)
      exact ⟨fun h0 => hM (by rw [← hxf (cir.val x.s), h0]; rfl), hxs, h2⟩
    rintro ws c1 e1 ⟨hwl, hwb, hwv⟩
    have hc1 : TWF (1 + xs.length) c1 := e1.text.twf (j := 1 + xs.length) (by simpa using hc')
    refine TSpec.bind (k := 1) (k' := xs.length)
      (windowPoints_tspec hE (hc1.mono (by omega)) h1c hcp hcr x.base ws (hxb.ext e1) hwb) ?_ e1.wf ?_
    · rintro ⟨⟨h, -⟩, -⟩ - -
      obtain ⟨⟨P, hP⟩, -, h3⟩ := h x (by simp)
      refine ⟨⟨P, by rw [ptAt_ext e1 hxb]; exact hP⟩, fun v hv => h3 _ ?_⟩
      rw [← hwv]
      exact List.mem_map_of_mem hv
    rintro ls c2 e2 ⟨hll, hlb⟩
    have e02 : TExt (0 + 1) cir c2 := e1.text.trans e2
    have hlM : ls.length = M := by rw [hll, hwl, hxf]
    refine TSpec.bind0 (updateSums_spec hE (2 ^ c) sums ls e2.wf (by rw [hlM]; exact hs)
      (fun q h => (hq q h).text e02) hlb) ?_ e2.wf ?_
    · rintro ⟨⟨⟨h, Qs, hQ⟩, -⟩, h4⟩ - -
      obtain ⟨⟨P, hP⟩, -, -⟩ := h x (by simp)
      refine ⟨Qs, ws.map (fun v => (c2.val v).val • P), ?_, ?_⟩
      · rw [← hQ]; exact List.map_congr_left fun q h => ptAt_text e02 (hq q h)
      · rw [h4.2 P (by rw [ptAt_text e02 hxb]; exact hP), List.map_map]; rfl
    rintro sums' c3 e3 ⟨hsl, hsb⟩
    have e03 : TExt (0 + 1 + 0) cir c3 := e02.trans e3.text
    have hc3 : TWF xs.length c3 := e03.twf (j := xs.length) (by simpa using hc')
    refine TSpec.bind (k := xs.length) (k' := 0) (ih sums' hc3
      (fun y hy => ⟨(hxl y hy).1.text e03, e03.lt (hxl y hy).2.1, (hxl y hy).2.2⟩) (Or.inr (hsl.trans hlM)) hsb) ?_ e3.wf ?_
    · rintro ⟨⟨⟨⟨h, Qs, hQ⟩, -⟩, h4⟩, h5⟩ - -
      refine ⟨?_, ?_⟩
      · intro y hy
        obtain ⟨⟨P, hP⟩, g2, g3⟩ := h y (by simp [hy])
        rw [e03.val _ (hxl y hy).2.1]
        exact ⟨⟨P, by rw [ptAt_text e03 (hxl y hy).1]; exact hP⟩, g2, g3⟩
      · obtain ⟨⟨P, hP⟩, -, -⟩ := h x (by simp)
        have g := h4.2 P (by rw [ptAt_text e02 hxb]; exact hP)
        obtain ⟨Rs, hR, -⟩ := h5 Qs (ws.map (fun v => (c2.val v).val • P))
          (by rw [← hQ]; exact List.map_congr_left fun q h => ptAt_text e03 (hq q h))
          (by
            rw [List.map_map]
            refine Eq.trans (List.map_congr_left fun q h => ptAt_ext e3 (hlb q h)) ?_
            rw [g]; rfl)
        exact ⟨Rs, hR⟩
    rintro r c4 e4 ⟨hr1, hr2, hr3, hr4⟩
    refine TSpec.pure e4.wf ⟨?_, hr2, ?_, ?_⟩ ?_
    · refine ⟨by simp, fun _ => ?_⟩
      by_cases h0 : xs = []
      · rw [hr1.1 h0, hsl, hlM]
      · exact hr1.2 h0
    · intro u hu v hv
      rcases List.mem_cons.1 hu with rfl | hu
      · exact e4.lt (e3.lt (e2.lt (hwb v hv)))
      · exact hr3 u hu v hv
    · rw [List.map_cons, List.map_cons, hr4]
      congr 1
      · rw [← hwv]
        exact List.map_congr_left fun v hv =>
          (e4.val v (e3.lt (e2.lt (hwb v hv)))).trans ((e3.val v (e2.lt (hwb v hv))).trans (e2.val v (hwb v hv)))
      · exact List.map_congr_left fun y hy => by rw [e03.val _ (hxl y hy).2.1]
    · intro w _ _ h4 h3 h2 h1
      refine ⟨List.Forall₂.cons ⟨by rw [hwl, hxf], h1, h2.1⟩ h4.1, ?_⟩
      intro Ps Qs hPs hQs
      cases Ps with
      | nil => simp at hPs
      | cons P Ps =>
        simp only [List.map_cons, List.cons.injEq] at hPs
        have g := h2.2 P hPs.1
        obtain ⟨Rs, hR, hR2⟩ := h3 Qs (ws.map (fun v => (w v).val • P)) hQs (by rw [g, List.map_map]; rfl)
        obtain ⟨Ts, hT, hT2⟩ := h4.2 Ps Rs hPs.2 hR
        refine ⟨Ts, hT, ?_⟩
        rw [hT2, hR2, List.zipWith_cons_cons, List.sum_cons, add_assoc]
        congr 2
        have := ptHorner_smul (2 ^ c) P (ws.map fun v => (w v).val)
        rw [List.map_map] at this
        exact this

theorem windowLoopW_rel (K : TE p) (c : ℕ) (xs : List (Item p)) : ∀ (ys : List (Item p)) (sums : List (ℕ × ℕ)),
    List.Forall₂ (fun x y : Item p => x.base = y.base ∧ x.s = y.s ∧ ∀ a b, (x.f a).length = (y.f b).length) xs ys →
    Rel (windowLoopW K c xs sums) (windowLoopW K c ys sums) := by
  induction xs with
  | nil =>
    intro ys sums h
    cases h
    exact Rel.pure _
  | cons x xs ih =>
    intro ys sums h
    cases h with
    | cons h1 h2 =>
      rename_i y ys
      unfold windowLoopW
      rw [← h1.1, ← h1.2.1]
      refine Rel.witness_bind fun a b => ?_
      refine Rel.bind (decomposeWith_rel _ _ (h1.2.2 a b) _ _) fun ws => Rel.bind (windowPoints_rel _ _ _ _) fun ls =>
        Rel.bind (updateSums_rel _ _ _) fun s' => Rel.bind (ih ys s' h2) fun _ => Rel.pure _

theorem checkPairs_ok (xs : List ((ℕ × ℕ) × ℕ)) {c : Circ p} (h : ∀ x ∈ xs, PIn c x.1 ∧ x.2 < c.numVars) :
    (checkPairs xs : Build p Unit) c = .ok ((), c) := by
  induction xs with
  | nil => rfl
  | cons x xs ih =>
    obtain ⟨⟨h1, h2⟩, h3⟩ := h x (by simp)
    have g' : ∀ i, i < c.numVars → (checkVar i : Build p _) c = .ok ((), c) := by
      intro i hi; unfold checkVar; rw [if_neg (by omega)]
    obtain ⟨base, s⟩ := x
    unfold checkPairs
    rw [bind_of_ok (g' _ h3), bind_of_ok (u := ()) (c1 := c) (by
      unfold checkPoint; rw [bind_of_ok (g' _ h1)]; exact g' _ h2)]
    exact ih fun y hy => h y (by simp [hy])

theorem checkPairs_rel (xs : List ((ℕ × ℕ) × ℕ)) : Rel (checkPairs xs : Build p Unit) (checkPairs xs) := by
  induction xs with
  | nil => exact Rel.pure _
  | cons x xs ih =>
    obtain ⟨base, s⟩ := x
    unfold checkPairs checkPoint
    exact Rel.bind (Rel.checkVar _) fun _ => Rel.bind (Rel.bind (Rel.checkVar _) fun _ => Rel.checkVar _) fun _ => ih

theorem msmPippengerW_rel (K : TE p) (c : ℕ) (xs ys : List (Item p))
    (h : List.Forall₂ (fun x y : Item p => x.base = y.base ∧ x.s = y.s ∧ ∀ a b, (x.f a).length = (y.f b).length) xs ys) :
    Rel (msmPippengerW K c xs) (msmPippengerW K c ys) := by
  have e : xs.map (fun x => (x.base, x.s)) = ys.map fun x => (x.base, x.s) := by
    induction h with
    | nil => rfl
    | cons h1 h2 ih => rw [List.map_cons, List.map_cons, ih, h1.1, h1.2.1]
  unfold msmPippengerW
  rw [e]
  exact Rel.bind (checkPairs_rel _) fun _ => Rel.bind (windowLoopW_rel K c xs ys [] h) fun _ =>
    Rel.bind (finishSums_rel _ _ _) fun _ => Rel.pure _

theorem msmPippengerW_tspec {K : TE p} {E : EdGroup (ZMod p)} (hE : OnTE K E) {c : ℕ} (h1c : 1 ≤ c) (hcp : 2 ^ c < p)
    (hcr : 2 ^ c ≤ K.r) {M : ℕ} (hM : M ≠ 0) (xs : List (Item p)) (hxs : xs ≠ []) {cir : Circ p}
    (hc : TWF xs.length cir)
    (hx : ∀ x ∈ xs, PIn cir x.base ∧ x.s < cir.numVars ∧ ∀ y, (x.f y).length = M) :
    TSpec xs.length (msmPippengerW K c xs) cir
      (∀ x ∈ xs, (∃ P : E.Pt, ptAt cir.val x.base = P.1) ∧
          cir.val x.s = horner ((2 ^ c : ℕ) : ZMod p) (x.f (cir.val x.s)) ∧
          ∀ d ∈ x.f (cir.val x.s), d.val < 2 ^ c)
      (fun r c' => PIn c' r.1 ∧ r.2.map (fun ws => ws.map c'.val) = xs.map (fun x => x.f (cir.val x.s)))
      (fun r w => List.Forall₂ (WinOK c M w) xs r.2 ∧
        ∀ Ps : List E.Pt, xs.map (fun x => ptAt w x.base) = Ps.map (fun P : E.Pt => P.1) →
          ptAt w r.1 = ((List.zipWith (fun (P : E.Pt) ws => winVal c w ws • P) Ps r.2).sum).1) := by
  unfold msmPippengerW
  refine TSpec.of_eq (v := ()) (checkPairs_ok _ fun y hy => ?_) ?_
  · obtain ⟨x, hx', rfl⟩ := List.mem_map.1 hy
    exact ⟨(hx x hx').1, (hx x hx').2.1⟩
  refine TSpec.bind (k := xs.length) (k' := 0)
    (windowLoopW_tspec hE h1c hcp hcr hM xs [] hc hx (Or.inl rfl) (by simp)) ?_ hc.wf ?_
  · intro h _ _
    exact ⟨h, [], rfl⟩
  rintro r c1 e1 ⟨hr1, hr2, hr3, hr4⟩
  have hbase : ∀ (Q : Circ p) (hQ : ∀ x ∈ xs, ∃ P : E.Pt, ptAt Q.val x.base = P.1),
      ∃ Ps : List E.Pt, xs.map (fun x => ptAt Q.val x.base) = Ps.map (fun P : E.Pt => P.1) := by
    intro Q hQ
    clear hr4 hx hc hxs hr1 e1
    induction xs with
    | nil => exact ⟨[], rfl⟩
    | cons x xs ih =>
      obtain ⟨P, hP⟩ := hQ x (by simp)
      obtain ⟨Ps, hPs⟩ := ih fun y hy => hQ y (by simp [hy])
      exact ⟨P :: Ps, by rw [List.map_cons, List.map_cons, hP, hPs]⟩
  refine TSpec.bind0 (finishSums_spec hE c r.1 e1.wf hr2) ?_ e1.wf ?_
  · rintro ⟨h, h2⟩ - -
    refine ⟨fun h0 => hM (by rw [← hr1.2 hxs, h0]; rfl), ?_⟩
    obtain ⟨Ps, hPs⟩ := hbase c1 fun x hx' => by
      obtain ⟨P, hP⟩ := (h x hx').1
      exact ⟨P, by rw [ptAt_text e1 (hx x hx').1]; exact hP⟩
    obtain ⟨Rs, hR, -⟩ := h2.2 Ps [] hPs rfl
    exact ⟨Rs, hR⟩
  rintro v c2 e2 hv
  refine TSpec.pure e2.wf ⟨hv, ?_⟩ ?_
  · show List.map (fun ws => ws.map c2.val) r.2 = _
    rw [← hr4]
    exact List.map_congr_left fun ws hws => List.map_congr_left fun u hu => e2.val u (hr3 ws hws u hu)
  · intro w _ _ h2 h1
    refine ⟨h1.1, fun Ps hPs => ?_⟩
    obtain ⟨Rs, hR, hR2⟩ := h1.2 Ps [] hPs rfl
    show ptAt w v = _
    rw [h2 Rs hR, hR2]
    simp [ptHorner]

end Verif.Circuit
