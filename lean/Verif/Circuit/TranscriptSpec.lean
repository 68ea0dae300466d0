import Verif.Circuit.TranscriptVar
import Verif.Circuit.VerifierSpec
import Verif.Circuit.RescueSpec
import Verif.Circuit.Indep
import Verif.Circuit.MsmLoop

/-!
# What the transcript circuit enforces

The functions are treated with the six truncations as parameters, so that the same lemmas cover the circuit the code
builds and the assignments of a prover who truncates differently.
-/

set_option linter.unusedSectionVars false

namespace Verif.Circuit.TranscriptVar

open Verif.Circuit Verif.Circuit.VerifierPoly
open Verif.Rescue (Vec Consts)

variable {p : ℕ}

def Six.All {α : Type} (P : α → Prop) (x : Six α) : Prop := P x.β ∧ P x.γ ∧ P x.α ∧ P x.ζ ∧ P x.v ∧ P x.u

def Six.All₂ {α β : Type} (P : α → β → Prop) (x : Six α) (y : Six β) : Prop :=
  P x.β y.β ∧ P x.γ y.γ ∧ P x.α y.α ∧ P x.ζ y.ζ ∧ P x.v y.v ∧ P x.u y.u

def Six.All₃ {α β γ : Type} (P : α → β → γ → Prop) (x : Six α) (y : Six β) (z : Six γ) : Prop :=
  P x.β y.β z.β ∧ P x.γ y.γ z.γ ∧ P x.α y.α z.α ∧ P x.ζ y.ζ z.ζ ∧ P x.v y.v z.v ∧ P x.u y.u z.u

def Six.map {α β : Type} (f : α → β) (x : Six α) : Six β := ⟨f x.β, f x.γ, f x.α, f x.ζ, f x.v, f x.u⟩

/-! ## The hash chain -/

section
variable {F : Type} [CommRing F]

/-- the state after a challenge is asked for -/
def nextState (f : Vec F → Vec F) (s : Vec F) (l : List F) : Vec F :=
  match Rescue.variableEvaluate f 4 (s.elems ++ l) with
  | .ok [a, b, c, d] => ⟨a, b, c, d⟩
  | _ => Rescue.zeroVec

/-- the elements absorbed before `β`, `α`, `ζ`, `v` and `u` (there are none before `γ`) -/
structure Data (F : Type) where
  d0 : List F
  d1 : List F
  d2 : List F
  d3 : List F
  d4 : List F

/-- the hashes -/
def hashes (f : Vec F → Vec F) (D : Data F) : Six F :=
  let s1 := nextState f Rescue.zeroVec D.d0
  let s2 := nextState f s1 []
  let s3 := nextState f s2 D.d1
  let s4 := nextState f s3 D.d2
  let s5 := nextState f s4 D.d3
  let s6 := nextState f s5 D.d4
  ⟨s1.a, s2.a, s3.a, s4.a, s5.a, s6.a⟩

end

/-- the coordinates of points in an assignment -/
def ptVals (w : ℕ → ZMod p) (ps : List (ℕ × ℕ)) : List (ZMod p) := ps.flatMap fun P => [w P.1, w P.2]

/-- the values of a key and a public input in an assignment -/
def vkVals {Q : ℕ} (w : ℕ → ZMod p) (x : VkVar Q × List (FpElemVar p)) : List (ZMod p) :=
  ptVals w x.1.selectors ++ ptVals w x.1.sigmas ++ x.2.map (·.felt w)

def evalVals (w : ℕ → ZMod p) (e : EvalsVar p) : List (ZMod p) := (e.wires ++ e.sigmas ++ [e.permNext]).map (·.felt w)

/-- the data of the transcript in an assignment -/
def dataOf {Q : ℕ} (w : ℕ → ZMod p) (msg : List (ZMod p)) (vks : List (VkVar Q)) (pis : List (List (FpElemVar p)))
    (b : ProofVar p) : Data (ZMod p) :=
  ⟨msg ++ (vks.zip pis).flatMap (vkVals w) ++ ptVals w b.wires.flatten, ptVals w b.prodPerm, ptVals w b.quot,
    b.evals.flatMap (evalVals w), ptVals w [b.opening, b.shifted]⟩

/-! ## The functions with the truncation as a parameter -/

/-- `TrVar.challenge` with another truncation -/
def TrVar.challengeW (tr : ℕ → Build p ℕ) (K : Consts) (Q : ℕ) (t : TrVar) : Build p (ℕ × TrVar) := do
  let l ← supportLookup
  if !l then Build.fail .parameter
  else if modulusBits Q ≠ 253 ∨ modulusBits p ≠ 377 then Build.fail .parameter
  else do
    let res ← unwrap (rescueSpongeWithPadding K (t.state.elems ++ t.vars) 4)
    match res with
    | [a, b, c, d] => do
      let ch ← tr a
      pure (ch, ⟨[], ⟨a, b, c, d⟩⟩)
    | _ => Build.fail .panic

/-- `draws` with other truncations -/
def drawsW {Q : ℕ} (tr : Six (ℕ → Build p ℕ)) (K : Consts) (vks : List (VkVar Q)) (pis : List (List (FpElemVar p)))
    (b : ProofVar p) (extra : Option (List ℕ)) : Build p Draws :=
  if vks.length ≠ b.prodPerm.length ∨ vks.length ≠ pis.length then Build.fail .parameter
  else do
    let m ← TrVar.new.extra extra
    let t ← m.2.vksAndInputs (vks.zip pis)
    let β ← (t.points b.wires.flatten).challengeW tr.β K Q
    let γ ← β.2.challengeW tr.γ K Q
    let α ← (γ.2.points b.prodPerm).challengeW tr.α K Q
    let ζ ← (α.2.points b.quot).challengeW tr.ζ K Q
    let t ← ζ.2.evalsAll b.evals
    let v ← t.challengeW tr.v K Q
    let u ← ((v.2.points [b.opening]).points [b.shifted]).challengeW tr.u K Q
    pure ⟨⟨β.1, γ.1, α.1, ζ.1, v.1, u.1⟩,
      ⟨β.2.state.a, γ.2.state.a, α.2.state.a, ζ.2.state.a, v.2.state.a, u.2.state.a⟩, m.1⟩

/-- `challengesVars` with other truncations -/
def challengesW {Q : ℕ} (tr : Six (ℕ → Build p ℕ)) (K : Consts) (I : Info p) (vks : List (VkVar Q))
    (pis : List (List (FpElemVar p))) (b : ProofVar p) (extra : Option (List ℕ)) : Build p (ChalVar p × Draws) := do
  let d ← drawsW tr K vks pis b extra
  let ch ← toElems I d.ch
  pure (ch, d)

/-- the truncations of the code -/
def codeTr : Six (ℕ → Build p ℕ) :=
  ⟨(truncate · 248), (truncate · 248), (truncate · 248), (truncate · 248), (truncate · 248), (truncate · 248)⟩

theorem challengesW_code {Q : ℕ} (K : Consts) (I : Info p) (vks : List (VkVar Q)) (pis : List (List (FpElemVar p)))
    (b : ProofVar p) (extra : Option (List ℕ)) :
    challengesW codeTr K I vks pis b extra = challengesVars K I vks pis b extra := rfl

/-! ## Specifications -/

/-- the variables of a transcript exist -/
def TIn (t : TrVar) (c : Circ p) : Prop := InS t.state c ∧ ∀ v ∈ t.vars, v < c.numVars

theorem TIn.ext {t : TrVar} {c c' : Circ p} (h : TIn t c) (e : Ext c c') : TIn t c' :=
  ⟨h.1.ext e, fun v hv => e.lt (h.2 v hv)⟩

theorem TIn.push {t : TrVar} {c : Circ p} (h : TIn t c) {l : List ℕ} (hl : ∀ v ∈ l, v < c.numVars) : TIn (t.push l) c :=
  ⟨h.1, fun v hv => by
    rcases List.mem_append.1 hv with hv | hv
    · exact h.2 v hv
    · exact hl v hv⟩

/-- the points exist -/
def PtsIn (ps : List (ℕ × ℕ)) (c : Circ p) : Prop := ∀ P ∈ ps, P.1 < c.numVars ∧ P.2 < c.numVars

theorem PtsIn.ext {ps : List (ℕ × ℕ)} {c c' : Circ p} (h : PtsIn ps c) (e : Ext c c') : PtsIn ps c' :=
  fun P hP => ⟨e.lt (h P hP).1, e.lt (h P hP).2⟩

theorem TIn.points {t : TrVar} {c : Circ p} (h : TIn t c) {ps : List (ℕ × ℕ)} (hl : PtsIn ps c) : TIn (t.points ps) c := by
  refine h.push fun v hv => ?_
  obtain ⟨P, hP, hv⟩ := List.mem_flatMap.1 hv
  simp only [List.mem_cons, List.not_mem_nil, or_false] at hv
  rcases hv with rfl | rfl
  · exact (hl P hP).1
  · exact (hl P hP).2

/-- the absorbed elements in an assignment -/
def TrVar.vals (t : TrVar) (w : ℕ → ZMod p) : List (ZMod p) := t.vars.map w

theorem vals_push (t : TrVar) (l : List ℕ) (w : ℕ → ZMod p) : (t.push l).vals w = t.vals w ++ l.map w := by
  simp [TrVar.vals, TrVar.push]

theorem vals_points (t : TrVar) (ps : List (ℕ × ℕ)) (w : ℕ → ZMod p) : (t.points ps).vals w = t.vals w ++ ptVals w ps := by
  rw [TrVar.points, vals_push]
  congr 1
  unfold ptVals
  induction ps with
  | nil => rfl
  | cons P ps ih => simp only [List.flatMap_cons, List.map_append, ih, List.map_cons, List.map_nil]

theorem ptVals_ext {ps : List (ℕ × ℕ)} {c c' : Circ p} (h : PtsIn ps c) (e : Ext c c') :
    ptVals c'.val ps = ptVals c.val ps := by
  unfold ptVals
  induction ps with
  | nil => rfl
  | cons P ps ih =>
    simp only [List.flatMap_cons]
    rw [ih (fun Q hQ => h Q (List.mem_cons_of_mem _ hQ)), e.val _ (h P List.mem_cons_self).1,
      e.val _ (h P List.mem_cons_self).2]

theorem map_val_ext {l : List ℕ} {c c' : Circ p} (h : ∀ v ∈ l, v < c.numVars) (e : Ext c c') :
    l.map c'.val = l.map c.val := List.map_congr_left fun v hv => e.val _ (h v hv)

theorem map_felt_ext {xs : List (FpElemVar p)} {c c' : Circ p} (h : ∀ x ∈ xs, x.In c) (e : Ext c c') :
    xs.map (·.felt c'.val) = xs.map (·.felt c.val) :=
  List.map_congr_left fun x hx => FpElemVar.felt_ext (h x hx) e

/-- absorbing elements -/
theorem elems_spec {C : Prop} {t : TrVar} {xs : List (FpElemVar p)} {c : Circ p} (hc : WF c) (ht : TIn t c)
    (hx : ∀ x ∈ xs, x.In c) :
    Spec (t.elems xs) c C (fun t' c' => TIn t' c' ∧ t'.state = t.state)
      (fun t' w => t'.vals w = t.vals w ++ xs.map (·.felt w)) := by
  unfold TrVar.elems
  refine Spec.bind (toVars_spec xs hc hx) (fun _ _ _ => trivial) hc ?_
  rintro vs c1 e1 ⟨h1, -⟩
  refine Spec.pure e1.wf ⟨(ht.ext e1).push h1, rfl⟩ ?_
  intro w _ _ h
  rw [vals_push, h]

/-- the variables of a key and a public input exist -/
def VkIn {Q : ℕ} (x : VkVar Q × List (FpElemVar p)) (c : Circ p) : Prop :=
  PtsIn x.1.selectors c ∧ PtsIn x.1.sigmas c ∧ ∀ y ∈ x.2, y.In c

theorem VkIn.ext {Q : ℕ} {x : VkVar Q × List (FpElemVar p)} {c c' : Circ p} (h : VkIn x c) (e : Ext c c') : VkIn x c' :=
  ⟨h.1.ext e, h.2.1.ext e, fun y hy => (h.2.2 y hy).ext e⟩

theorem vkVals_ext {Q : ℕ} {x : VkVar Q × List (FpElemVar p)} {c c' : Circ p} (h : VkIn x c) (e : Ext c c') :
    vkVals c'.val x = vkVals c.val x := by
  unfold vkVals; rw [ptVals_ext h.1 e, ptVals_ext h.2.1 e, map_felt_ext h.2.2 e]

theorem vksAndInputs_spec {Q : ℕ} {C : Prop} (xs : List (VkVar Q × List (FpElemVar p))) : ∀ {t : TrVar} {c : Circ p}, WF c → TIn t c →
    (∀ x ∈ xs, VkIn x c) →
    Spec (t.vksAndInputs xs) c C (fun t' c' => TIn t' c' ∧ t'.state = t.state)
      (fun t' w => t'.vals w = t.vals w ++ xs.flatMap (vkVals w)) := by
  induction xs with
  | nil =>
    intro t c hc ht _
    exact Spec.pure hc ⟨ht, rfl⟩ (fun w _ _ => by simp)
  | cons x xs ih =>
    intro t c hc ht hx
    have h0 := hx x List.mem_cons_self
    unfold TrVar.vksAndInputs TrVar.vkAndInput
    refine Spec.bind (elems_spec (C := C) hc ((ht.points h0.1).points h0.2.1) h0.2.2) (fun h _ _ => h) hc ?_
    rintro t1 c1 e1 ⟨h1, s1⟩
    refine Spec.conseq e1.wf (ih e1.wf h1 fun y hy => (hx y (List.mem_cons_of_mem _ hy)).ext e1) (fun h _ _ => h.1) ?_ ?_
    · rintro t2 c2 _ ⟨h2, s2⟩
      exact ⟨h2, s2.trans s1⟩
    · intro t2 w _ _ g1 g2
      rw [g1, g2, vals_points, vals_points]
      simp [vkVals]

/-- the variables of the evaluations exist -/
def EvIn (e : EvalsVar p) (c : Circ p) : Prop := ∀ y ∈ e.wires ++ e.sigmas ++ [e.permNext], y.In c

theorem EvIn.ext {x : EvalsVar p} {c c' : Circ p} (h : EvIn x c) (e : Ext c c') : EvIn x c' :=
  fun y hy => (h y hy).ext e

theorem evalsAll_spec {C : Prop} (xs : List (EvalsVar p)) : ∀ {t : TrVar} {c : Circ p}, WF c → TIn t c →
    (∀ x ∈ xs, EvIn x c) →
    Spec (t.evalsAll xs) c C (fun t' c' => TIn t' c' ∧ t'.state = t.state)
      (fun t' w => t'.vals w = t.vals w ++ xs.flatMap (evalVals w)) := by
  induction xs with
  | nil =>
    intro t c hc ht _
    exact Spec.pure hc ⟨ht, rfl⟩ (fun w _ _ => by simp)
  | cons x xs ih =>
    intro t c hc ht hx
    have h0 := hx x List.mem_cons_self
    unfold TrVar.evalsAll TrVar.evals
    refine Spec.bind (elems_spec (C := C) hc ht h0) (fun h _ _ => h) hc ?_
    rintro t1 c1 e1 ⟨h1, s1⟩
    refine Spec.conseq e1.wf (ih e1.wf h1 fun y hy => (hx y (List.mem_cons_of_mem _ hy)).ext e1) (fun h _ _ => h.1) ?_ ?_
    · rintro t2 c2 _ ⟨h2, s2⟩
      exact ⟨h2, s2.trans s1⟩
    · intro t2 w _ _ g1 g2
      rw [g1, g2, List.flatMap_cons, List.append_assoc]
      rfl

theorem createAll_spec {C : Prop} (xs : List (ZMod p)) : ∀ {c : Circ p}, WF c →
    Spec (createAll xs) c C (fun vs c' => (∀ v ∈ vs, v < c'.numVars) ∧ vs.map c'.val = xs) (fun _ _ => True) := by
  induction xs with
  | nil =>
    intro c hc
    exact Spec.pure hc ⟨by simp, rfl⟩ (fun w _ _ => trivial)
  | cons x xs ih =>
    intro c hc
    unfold createAll
    refine Spec.create_bind hc ?_
    intro v c1 e1 l1 h1
    refine Spec.bind (ih e1.wf) (fun h _ _ => h) e1.wf ?_
    rintro vs c2 e2 ⟨l2, h2⟩
    refine Spec.pure e2.wf ⟨?_, ?_⟩ (fun w _ _ _ => trivial)
    · intro u hu
      rcases List.mem_cons.1 hu with rfl | hu
      · exact e2.lt l1
      · exact l2 u hu
    · rw [List.map_cons, h2, e2.val _ l1, h1]

/-- the elements of the message of the caller -/
def msgElems (p : ℕ) : Option (List ℕ) → Except Plonk.TErr (List (ZMod p))
  | none => .ok []
  | some m => Plonk.messageElems p m

theorem extra_spec {C : Prop} (extra : Option (List ℕ)) {t : TrVar} {c : Circ p} (hc : WF c) (ht : TIn t c) :
    Spec (t.extra extra) c (C ∧ ∃ l, msgElems p extra = .ok l)
      (fun r c' => TIn r.2 c' ∧ r.2.state = t.state ∧ (∀ v ∈ r.1, v < c'.numVars) ∧ msgElems p extra = .ok (r.1.map c'.val))
      (fun r w => r.2.vals w = t.vals w ++ r.1.map w) := by
  unfold TrVar.extra
  split
  · exact Spec.pure hc ⟨ht, rfl, by simp, rfl⟩ (fun w _ _ => by simp)
  rename_i m
  split
  · rename_i e he
    refine Spec.fail ?_
    rintro ⟨-, l, hl⟩
    rw [show msgElems p (some m) = Plonk.messageElems p m from rfl, he] at hl
    cases hl
  rename_i l hl
  refine Spec.bind (createAll_spec (C := True) l hc) (fun _ _ _ => trivial) hc ?_
  rintro vs c1 e1 ⟨l1, h1⟩
  refine Spec.pure e1.wf ⟨(ht.ext e1).push l1, rfl, l1, ?_⟩ ?_
  · rw [show msgElems p (some m) = Plonk.messageElems p m from rfl, hl, h1]
  · intro w _ _ _
    rw [vals_push]

theorem unwrap_spec {α : Type} {m : Build p α} {c : Circ p} {C : Prop} {B : α → Circ p → Prop} {R : α → (ℕ → ZMod p) → Prop}
    (h : Spec m c C B R) : Spec (unwrap m) c C B R := by
  constructor
  · intro v c' hv
    unfold unwrap at hv
    split at hv
    · rename_i x hx
      cases hv
      exact h.sound _ _ hx
    · cases hv
  · intro hC pi hs
    obtain ⟨v, c', h1, h2⟩ := h.complete hC pi hs
    exact ⟨v, c', by unfold unwrap; rw [h1], h2⟩

/-! ### The truncation -/

/-- what the constraints of the truncation say about the hash `a` and the challenge `b` -/
def TrRel (k : ℕ) (w : ℕ → ZMod p) (a b : ℕ) : Prop :=
  ∃ b1 b2 z1 z2, TruncRel w a b b1 b2 z1 z2 248 (248 - 248 % k) (248 % k)
    (modulusBits p - 248 - (modulusBits p - 248) % k) ((modulusBits p - 248) % k)

/-- a way to build the truncation: `g` is the challenge for a hash, `P` the hashes for which it works -/
structure TrOk (k Q : ℕ) (tr : ℕ → Build p ℕ) (P : ZMod p → Prop) (g : ZMod p → ℕ) : Prop where
  lt : ∀ x, g x < Q
  rel : ∀ a, Rel (truncate a 248) (tr a)
  spec : ∀ {c : Circ p} (_ : WF c) (_ : RangeOK c) (_ : c.ultra = some k) (a : ℕ), a < c.numVars →
    Spec (tr a) c (P (c.val a)) (fun b c' => b < c'.numVars ∧ (c'.val b).val = g (c.val a)) (fun b w => TrRel k w a b)

section
variable [hp : Fact p.Prime] {Q : ℕ} [hQ : Fact Q.Prime] {k : ℕ}

theorem two_pow_le_of_bits {n N : ℕ} (h : modulusBits N = n) (hn : 0 < n) : 2 ^ (n - 1) ≤ N ∧ N < 2 ^ n :=
  ⟨two_pow_le_of_lt_modulusBits (by omega), by rw [← h]; exact Nat.lt_size_self N⟩

/-- the truncation of the code -/
theorem truncate_ok (hbp : modulusBits p = 377) (hbQ : modulusBits Q = 253) :
    TrOk k Q (fun a => truncate (p := p) a 248) (fun _ => True) (fun x => x.val % 2 ^ 248) := by
  have hp2 : p ≠ 2 := by rintro rfl; revert hbp; decide
  have hQ' := (two_pow_le_of_bits hbQ (by norm_num)).1
  refine ⟨fun x => ?_, fun a => truncate_rel a 248, ?_⟩
  · have : x.val % 2 ^ 248 < 2 ^ 248 := Nat.mod_lt _ (by positivity)
    have h2 : (2 : ℕ) ^ 248 ≤ 2 ^ (253 - 1) := Nat.pow_le_pow_right (by norm_num) (by norm_num)
    omega
  intro c hc hr hu a ha
  unfold truncate
  apply Spec.checkVar_bind (fun _ => ha); intro ha
  apply Spec.witness_bind (fun _ => ha); intro _
  dsimp only
  refine Spec.bind (createVariable_spec hc _ True) (fun _ _ _ => trivial) hc ?_
  rintro b c1 e1 ⟨hb, vb⟩
  have hval : (c1.val b).val = (c.val a).val % 2 ^ 248 := by
    rw [vb, val_two_pow hp2 (by rw [hbp]; norm_num),
      val_natCast_of_lt' (lt_of_le_of_lt (Nat.mod_le _ _) (ZMod.val_lt _))]
  refine Spec.bind (truncateGate_spec hp2 e1.wf (hr.ext e1) (e1.ultra.trans hu) a b 248) ?_ e1.wf ?_
  · rintro - - -
    refine ⟨⟨e1.lt ha, hb⟩, by norm_num, by rw [hbp]; norm_num, ?_⟩
    rw [hval, e1.val a ha]
  rintro _ c2 e2 -
  exact Spec.pure e2.wf ⟨e2.lt hb, by rw [e2.val _ hb, hval]⟩ (fun w _ _ h _ => h)

theorem Spec.read_bind {α β : Type} {m : Build p α} {f : α → Build p β} {v : α} {c : Circ p} {C : Prop}
    {B : β → Circ p → Prop} {R : β → (ℕ → ZMod p) → Prop} (hm : m c = .ok (v, c)) (hs : Spec (f v) c C B R) :
    Spec (m >>= f) c C B R := by
  constructor
  · intro u c' h; rw [bind_of_ok hm] at h; exact hs.sound u c' h
  · intro hC pi h; rw [bind_of_ok hm]; exact hs.complete hC pi h

/-- the truncation of another prover: the challenge `B` and the rest `Z` of a hash are arbitrary functions of the hash -/
def truncateWith (B Z : ZMod p → ℕ) (a : ℕ) : Build p ℕ := do
  checkVar a
  let av ← witness a
  let b ← createVariable ((B av : ℕ) : ZMod p)
  let _ ← supportLookup
  checkVar a
  checkVar b
  let k ← rangeBitLen
  let nlkB := 248 % k
  let lkB := 248 - nlkB
  let nlkD := (modulusBits p - 248) % k
  let lkD := modulusBits p - 248 - nlkD
  let b1 ← createVariable ((B av % 2 ^ lkB : ℕ) : ZMod p)
  let b2 ← createVariable ((B av / 2 ^ lkB : ℕ) : ZMod p)
  let z1 ← createVariable ((Z av % 2 ^ lkD : ℕ) : ZMod p)
  let z2 ← createVariable ((Z av / 2 ^ lkD : ℕ) : ZMod p)
  truncateConstraints a b b1 b2 z1 z2 248 lkB nlkB lkD nlkD
  pure b

theorem truncateWith_rel (B Z : ZMod p → ℕ) (a : ℕ) : Rel (truncate a 248) (truncateWith B Z a) := by
  unfold truncate truncateWith
  refine Rel.bind (Rel.checkVar _) fun _ => Rel.witness_bind fun x y => ?_
  dsimp only
  refine Rel.bind (Rel.createVariable _ _) fun b => ?_
  unfold truncateGate
  rw [build_bind_assoc]
  refine Rel.bind Rel.supportLookup fun l => ?_
  split
  · intro c d hs v1 c' v2 d' h1 h2
    obtain ⟨u, c1, a1, a2⟩ := bind_ok h1
    cases a1
  simp only [build_bind_assoc]
  refine Rel.bind (Rel.checkVar _) fun _ => Rel.bind (Rel.checkVar _) fun _ => ?_
  refine Rel.witness_bindL fun u => Rel.witness_bindL fun v => ?_
  have hfail : ∀ {e : CErr} {m m' : Build p ℕ} {n : Unit → Build p ℕ}, Rel ((Build.fail e : Build p Unit) >>= n) m' := by
    intro e m m' n c d hs v1 c' v2 d' h1 h2
    obtain ⟨u, c1, a1, a2⟩ := bind_ok h1
    cases a1
  split
  · exact hfail (m := pure 0)
  split
  · exact hfail (m := pure 0)
  simp only [build_bind_assoc]
  refine Rel.bind Rel.rangeBitLen fun k => ?_
  split
  · exact hfail (m := pure 0)
  split
  · exact hfail (m := pure 0)
  simp only [build_bind_assoc]
  refine Rel.bind (Rel.createVariable _ _) fun _ => Rel.bind (Rel.createVariable _ _) fun _ =>
    Rel.bind (Rel.createVariable _ _) fun _ => Rel.bind (Rel.createVariable _ _) fun _ => Rel.bind ?_ fun _ => Rel.pure _
  unfold truncateConstraints
  exact Rel.bind (lcGate_rel _ _ _ _ _ _ _ _ _) fun _ => Rel.bind (lcGate_rel _ _ _ _ _ _ _ _ _)
    fun _ => Rel.bind (whenNonzero_rel (rangeGateWithLookup_rel _ _)) fun _ =>
    Rel.bind (whenNonzero_rel (enforceInRange_rel _ _)) fun _ =>
    Rel.bind (whenNonzero_rel (rangeGateWithLookup_rel _ _)) fun _ =>
    whenNonzero_rel (enforceInRange_rel _ _)

theorem truncateWith_ok (hbp : modulusBits p = 377) (hQp : Q ≤ p) {B Z : ZMod p → ℕ}
    (hB : ∀ x, B x < Q) :
    TrOk k Q (truncateWith B Z)
      (fun x => ((B x + 2 ^ 248 * Z x : ℕ) : ZMod p) = x ∧ Z x < 2 ^ 129 ∧ (248 % k ≠ 0 → B x < 2 ^ 248)) B := by
  have hp2 : p ≠ 2 := by rintro rfl; revert hbp; decide
  have hp' := (two_pow_le_of_bits hbp (by norm_num)).1
  refine ⟨hB, fun a => truncateWith_rel B Z a, ?_⟩
  intro c hc hr hu a ha
  have hBp : B (c.val a) < p := (hB _).trans_le hQp
  unfold truncateWith
  apply Spec.checkVar_bind (fun _ => ha); intro ha
  apply Spec.witness_bind (fun _ => ha); intro _
  refine Spec.create_bind hc ?_
  intro b c1 e1 hb vb
  refine Spec.read_bind (v := c1.ultra.isSome) rfl ?_
  apply Spec.checkVar_bind (fun _ => e1.lt ha); intro _
  apply Spec.checkVar_bind (fun _ => hb); intro _
  have hu1 : c1.ultra = some k := e1.ultra.trans hu
  refine Spec.read_bind (v := k) (by unfold rangeBitLen; rw [hu1]) ?_
  dsimp only
  set nlkB := 248 % k with hnlkB
  set lkB := 248 - nlkB with hlkB
  set nlkD := (modulusBits p - 248) % k with hnlkD
  set lkD := modulusBits p - 248 - nlkD with hlkD
  have hnb : nlkB ≤ 248 := Nat.mod_le _ _
  have hnd : nlkD ≤ modulusBits p - 248 := Nat.mod_le _ _
  refine Spec.create_bind e1.wf ?_
  intro b1 c2 e2 hb1 vb1
  refine Spec.create_bind e2.wf ?_
  intro b2 c3 e3 hb2 vb2
  refine Spec.create_bind e3.wf ?_
  intro z1 c4 e4 hz1 vz1
  refine Spec.create_bind e4.wf ?_
  intro z2 c5 e5 hz2 vz2
  have x15 := e2.trans (e3.trans (e4.trans e5))
  have x05 := e1.trans x15
  have x25 := e3.trans (e4.trans e5)
  have x35 := e4.trans e5
  refine Spec.bind (truncateConstraints_spec x05.wf (hr.ext x05) (by rw [x05.ultra, hu]; rfl) (x05.lt ha) (x15.lt hb)
    (x25.lt hb1) (x35.lt hb2) (e5.lt hz1) hz2 248 lkB nlkB lkD nlkD) ?_ x05.wf ?_
  · rintro ⟨hP1, hP2, hP3⟩ - -
    rw [x05.val _ ha, x15.val _ hb, x25.val _ hb1, x35.val _ hb2, e5.val _ hz1, vz2, vz1, vb2, vb1, vb]
    set x := c.val a
    have lt_p : ∀ n, n < 377 → 2 ^ n ≤ p := fun n hn =>
      (Nat.pow_le_pow_right (by norm_num) (by omega)).trans hp'
    have splitlt : ∀ {x i j : ℕ}, x < 2 ^ (i + j) → x / 2 ^ i < 2 ^ j := by
      intro x i j hx
      apply Nat.div_lt_of_lt_mul; rw [← pow_add]; exact hx
    have hZp : Z x < p := hP2.trans_le (lt_p 129 (by norm_num))
    refine ⟨?_, ?_, fun _ => ?_, fun h => ?_, fun _ => ?_, fun _ => ?_⟩
    · conv_lhs => rw [← Nat.mod_add_div (B x) (2 ^ lkB)]
      push_cast; ring
    · conv_lhs => rw [← hP1, ← Nat.mod_add_div (Z x) (2 ^ lkD)]
      push_cast; ring
    · rw [val_natCast_of_lt' ((Nat.mod_le _ _).trans_lt hBp)]
      exact Nat.mod_lt _ (by positivity)
    · rw [val_natCast_of_lt' ((Nat.div_le_self _ _).trans_lt hBp)]
      apply splitlt
      have : lkB + nlkB = 248 := by omega
      rw [this]; exact hP3 h
    · rw [val_natCast_of_lt' ((Nat.mod_le _ _).trans_lt hZp)]
      exact Nat.mod_lt _ (by positivity)
    · rw [val_natCast_of_lt' ((Nat.div_le_self _ _).trans_lt hZp)]
      apply splitlt
      have : lkD + nlkD = 129 := by omega
      rw [this]; exact hP2
  rintro _ c6 e6 -
  refine Spec.pure e6.wf ⟨e6.lt (x15.lt hb), ?_⟩ ?_
  · rw [e6.val _ (x15.lt hb), x15.val _ hb, vb, val_natCast_of_lt' hBp]
  · intro w _ _ h
    exact ⟨b1, b2, z1, z2, h⟩

/-! ### A challenge -/


variable {K : Consts} {f : Vec (ZMod p) → Vec (ZMod p)}

theorem sponge_length {F : Type} [CommRing F] {f : Vec F → Vec F} {x : List F} {n : ℕ} {out : List F}
    (h : Rescue.spongeWithBitPadding f x n = .ok out) : out.length = n := by
  unfold Rescue.spongeWithBitPadding at h
  cases hs : Rescue.spongeNoPadding f (Rescue.bitPad x) n with
  | error e => rw [hs] at h; cases h
  | ok y =>
    rw [hs] at h
    cases h
    unfold Rescue.spongeNoPadding at hs
    split at hs
    · cases hs
    · cases hs
      exact (Rescue.squeezeAux_spec f (rate := Rescue.crhfRate) (by decide) (by decide) (n + 1)
        (Rescue.absorb f Rescue.crhfRate Rescue.zeroVec (Rescue.bitPad x)) n (by omega)).1

theorem nextState_eq {F : Type} [CommRing F] {f : Vec F → Vec F} {s s' : Vec F} {l : List F}
    (h : Rescue.spongeWithBitPadding f (s.elems ++ l) 4 = .ok s'.elems) : nextState f s l = s' := by
  unfold nextState Rescue.variableEvaluate
  rw [h]
  rfl

theorem challengeW_spec (h : HashOk K f) (hbp : modulusBits p = 377) (hbQ : modulusBits Q = 253)
    {tr : ℕ → Build p ℕ} {P : ZMod p → Prop} {g : ZMod p → ℕ} (ht : TrOk k Q tr P g) {C : Prop}
    {t : TrVar} {c : Circ p} (hc : WF c) (hr : RangeOK c) (hu : c.ultra = some k) (hin : TIn t c)
    (hC : C → c.val 0 = 0 → P (nextState f (t.state.map c.val) (t.vals c.val)).a) :
    Spec (t.challengeW tr K Q) c C
      (fun r c' => r.1 < c'.numVars ∧ TIn r.2 c' ∧ r.2.vars = [] ∧ (c'.val r.1).val = g (c'.val r.2.state.a))
      (fun r w => r.2.state.map w = nextState f (t.state.map w) (t.vals w) ∧ TrRel k w r.2.state.a r.1) := by
  have hl1 : (supportLookup : Build p Bool) c = .ok (true, c) := by
    unfold supportLookup; rw [hu]; rfl
  unfold TrVar.challengeW
  refine Spec.read_bind hl1 ?_
  rw [if_neg (by simp), if_neg (by simp [hbp, hbQ])]
  have hmem : ∀ v ∈ t.state.elems ++ t.vars, v < c.numVars := by
    intro v hv
    rcases List.mem_append.1 hv with hv | hv
    · simp only [Vec.elems, List.mem_cons, List.not_mem_nil, or_false] at hv
      obtain ⟨h1, h2, h3, h4⟩ := hin.1
      rcases hv with rfl | rfl | rfl | rfl <;> assumption
    · exact hin.2 v hv
  have hmap : ∀ w : ℕ → ZMod p, (t.state.elems ++ t.vars).map w = (t.state.map w).elems ++ t.vals w := by
    intro w; simp [Vec.elems, Vec.map, TrVar.vals]
  refine Spec.bind (unwrap_spec (rescueSpongeWithPadding_spec h hc (t.state.elems ++ t.vars) 4))
    (fun _ _ _ => ⟨by simp [Vec.elems], hmem⟩) hc ?_
  intro vs c1 e1 hvs
  have hlen : ∀ w : ℕ → ZMod p, Rescue.spongeWithBitPadding f ((t.state.elems ++ t.vars).map w) 4 = .ok (vs.map w) →
      vs.length = 4 := fun w hw => by simpa using sponge_length hw
  split
  · rename_i a b d e
    have hin1 : InS (⟨a, b, d, e⟩ : Vec ℕ) c1 :=
      ⟨hvs a (by simp), hvs b (by simp), hvs d (by simp), hvs e (by simp)⟩
    have key : ∀ w : ℕ → ZMod p, Rescue.spongeWithBitPadding f ((t.state.elems ++ t.vars).map w) 4 = .ok ([a, b, d, e].map w) →
        (⟨a, b, d, e⟩ : Vec ℕ).map w = nextState f (t.state.map w) (t.vals w) := by
      intro w hw
      rw [hmap] at hw
      exact (nextState_eq (s' := (⟨a, b, d, e⟩ : Vec ℕ).map w) hw).symm
    refine Spec.bind (ht.spec e1.wf (hr.ext e1) (e1.ultra.trans hu) a hin1.1) ?_ e1.wf ?_
    · rintro ⟨hC', hR⟩ h0 -
      have h0' : c.val 0 = 0 := by rw [← e1.val _ hc.z]; exact h0
      have := hC hC' h0'
      have k1 := key c1.val hR
      have e2 : t.state.map c1.val = t.state.map c.val := by
        obtain ⟨h1, h2, h3, h4⟩ := hin.1
        simp [Vec.map, e1.val _ h1, e1.val _ h2, e1.val _ h3, e1.val _ h4]
      have e3 : t.vals c1.val = t.vals c.val := map_val_ext hin.2 e1
      rw [e2, e3] at k1
      rw [← k1] at this
      exact this
    rintro ch c2 e2 ⟨hch, hv⟩
    refine Spec.pure e2.wf ⟨hch, ⟨hin1.ext e2, by simp⟩, rfl, ?_⟩ ?_
    · show (c2.val ch).val = g (c2.val a)
      rw [hv, e2.val _ hin1.1]
    · intro w _ _ h1 h2
      exact ⟨key w h2, h1⟩
  · rename_i hne
    refine Spec.fail ?_
    rintro ⟨-, hR⟩
    have := hlen _ hR
    match vs, this with
    | [a, b, d, e], _ => exact hne a b d e rfl

theorem chal_bind (h : HashOk K f) (hbp : modulusBits p = 377) (hbQ : modulusBits Q = 253)
    {tr : ℕ → Build p ℕ} {P : ZMod p → Prop} {g : ZMod p → ℕ} (ht : TrOk k Q tr P g) {C : Prop}
    {β : Type} {F : ℕ × TrVar → Build p β} {B : β → Circ p → Prop} {R : β → (ℕ → ZMod p) → Prop}
    {t : TrVar} {c : Circ p} (hc : WF c) (hr : RangeOK c) (hu : c.ultra = some k) (hin : TIn t c)
    {s : Vec (ZMod p)} {L : List (ZMod p)}
    (hst : C → c.val 0 = 0 → t.state.map c.val = s ∧ t.vals c.val = L) (hP : C → P (nextState f s L).a)
    (cont : ∀ r c1, Ext c c1 → r.1 < c1.numVars → TIn r.2 c1 → r.2.vars = [] → (c1.val r.1).val = g (c1.val r.2.state.a) →
      Spec (F r) c1 (C ∧ r.2.state.map c1.val = nextState f s L) B (fun u w =>
        r.2.state.map w = nextState f (t.state.map w) (t.vals w) → TrRel k w r.2.state.a r.1 → R u w)) :
    Spec (t.challengeW tr K Q >>= F) c C B R := by
  refine Spec.bind (challengeW_spec (C := C ∧ c.val 0 = 0) h hbp hbQ ht hc hr hu hin ?_) (fun hC h0 _ => ⟨hC, h0⟩) hc ?_
  · rintro ⟨hC, h0⟩ -
    obtain ⟨h1, h2⟩ := hst hC h0
    rw [h1, h2]
    exact hP hC
  rintro r c1 e1 ⟨h1, h2, h3, h4⟩
  refine Spec.conseq e1.wf (cont r c1 e1 h1 h2 h3 h4) ?_ (fun _ _ _ h => h) ?_
  · rintro ⟨hC, hR, -⟩ h0 -
    have h0' : c.val 0 = 0 := by rw [← e1.val _ hc.z]; exact h0
    obtain ⟨g1, g2⟩ := hst hC h0'
    refine ⟨hC, ?_⟩
    have e2 : t.state.map c1.val = t.state.map c.val := by
      obtain ⟨h1, h2, h3, h4⟩ := hin.1
      simp [Vec.map, e1.val _ h1, e1.val _ h2, e1.val _ h3, e1.val _ h4]
    have e3 : t.vals c1.val = t.vals c.val := map_val_ext hin.2 e1
    rw [hR, e2, e3, g1, g2]
  · rintro u w _ _ g1 ⟨g2, g3⟩
    exact g1 g2 g3

/-! ### All challenges -/

/-- the variables of the proof exist -/
structure ProofIn (b : ProofVar p) (c : Circ p) : Prop where
  wires : PtsIn b.wires.flatten c
  prodPerm : PtsIn b.prodPerm c
  evals : ∀ e ∈ b.evals, EvIn e c
  quot : PtsIn b.quot c
  opens : PtsIn [b.opening, b.shifted] c

theorem evalVals_ext {x : EvalsVar p} {c c' : Circ p} (h : EvIn x c) (e : Ext c c') : evalVals c'.val x = evalVals c.val x :=
  map_felt_ext h e

theorem flatMap_congr' {α β : Type} {l : List α} {f g : α → List β} (h : ∀ x ∈ l, f x = g x) : l.flatMap f = l.flatMap g := by
  induction l with
  | nil => rfl
  | cons x l ih =>
    rw [List.flatMap_cons, List.flatMap_cons, h x List.mem_cons_self, ih fun y hy => h y (List.mem_cons_of_mem _ hy)]

theorem dataOf_ext {vks : List (VkVar Q)} {pis : List (List (FpElemVar p))} {b : ProofVar p} {c c' : Circ p}
    (hv : ∀ x ∈ vks.zip pis, VkIn x c) (hb : ProofIn b c) (e : Ext c c') (msg : List (ZMod p)) :
    dataOf c'.val msg vks pis b = dataOf c.val msg vks pis b := by
  unfold dataOf
  rw [ptVals_ext hb.wires e, ptVals_ext hb.prodPerm e, ptVals_ext hb.quot e, ptVals_ext hb.opens e,
    flatMap_congr' fun x hx => vkVals_ext (hv x hx) e, flatMap_congr' fun x hx => evalVals_ext (hb.evals x hx) e]

theorem drawsW_spec (h : HashOk K f) (hbp : modulusBits p = 377) (hbQ : modulusBits Q = 253)
    {tr : Six (ℕ → Build p ℕ)} {P : Six (ZMod p → Prop)} {g : Six (ZMod p → ℕ)} (ht : Six.All₃ (TrOk k Q) tr P g)
    {vks : List (VkVar Q)} {pis : List (List (FpElemVar p))} {b : ProofVar p} {extra : Option (List ℕ)}
    {ml : List (ZMod p)} (hm : msgElems p extra = .ok ml) {c : Circ p} (hc : WF c) (hr : RangeOK c) (hu : c.ultra = some k)
    (hv : ∀ x ∈ vks.zip pis, VkIn x c) (hb : ProofIn b c) {H : Prop} :
    Spec (drawsW tr K vks pis b extra) c
      ((vks.length = b.prodPerm.length ∧ vks.length = pis.length) ∧ H ∧
        Six.All₂ (fun P x => P x) P (hashes f (dataOf c.val ml vks pis b)))
      (fun d c' => d.ch.All (· < c'.numVars) ∧ d.hash.All (· < c'.numVars) ∧ (∀ v ∈ d.msg, v < c'.numVars) ∧
        d.msg.map c'.val = ml ∧
        Six.All₃ (fun g a b => (c'.val b).val = g (c'.val a)) g d.hash d.ch)
      (fun d w => d.hash.map w = hashes f (dataOf w (d.msg.map w) vks pis b) ∧ Six.All₂ (TrRel k w) d.hash d.ch) := by
  unfold drawsW
  split
  · rename_i hl
    refine Spec.fail fun hC => ?_
    rcases hl with hl | hl
    · exact hl hC.1.1
    · exact hl hC.1.2
  have z0 : TIn TrVar.new c := ⟨⟨hc.z, hc.z, hc.z, hc.z⟩, by simp [TrVar.new]⟩
  refine Spec.bind (extra_spec (C := True) extra hc z0) (fun _ _ _ => ⟨trivial, ml, hm⟩) hc ?_
  rintro m c1 e1 ⟨i1, s1, l1, h1⟩
  have hml : m.1.map c1.val = ml := by rw [hm] at h1; exact (Except.ok.inj h1).symm
  refine Spec.bind (vksAndInputs_spec (C := True) _ e1.wf i1 fun x hx => (hv x hx).ext e1) (fun _ _ _ => trivial) e1.wf ?_
  rintro t c2 e2 ⟨i2, s2⟩
  have x02 := e1.trans e2
  have t_state : t.state = TrVar.new.state := s2.trans s1
  have zmap : ∀ w : ℕ → ZMod p, w 0 = 0 → TrVar.new.state.map w = Rescue.zeroVec := by
    intro w hw; simp [TrVar.new, Vec.map, Rescue.zeroVec, hw]
  have t_vals : ∀ w : ℕ → ZMod p, m.2.vals w = TrVar.new.vals w ++ m.1.map w →
      t.vals w = m.2.vals w ++ (vks.zip pis).flatMap (vkVals w) →
      (t.points b.wires.flatten).vals w = (dataOf w (m.1.map w) vks pis b).d0 := by
    intro w g1 g2
    rw [vals_points, g2, g1]
    simp [dataOf, TrVar.vals, TrVar.new]
  set D := dataOf c.val ml vks pis b with hD
  have hDe : ∀ {c' : Circ p}, Ext c c' → dataOf c'.val ml vks pis b = D := fun e => dataOf_ext hv hb e ml
  refine chal_bind (s := Rescue.zeroVec) (L := D.d0) h hbp hbQ ht.1 e2.wf (hr.ext x02) (x02.ultra.trans hu) (i2.points (hb.wires.ext x02)) ?_ ?_ ?_
  · rintro ⟨⟨-, g1⟩, g2⟩ h0
    have g1' : m.2.vals c2.val = TrVar.new.vals c2.val ++ m.1.map c2.val := by
      have a1 : m.2.vals c2.val = m.2.vals c1.val := map_val_ext i1.2 e2
      have a2 : m.1.map c2.val = m.1.map c1.val := map_val_ext l1 e2
      rw [a1, a2, g1]; rfl
    refine ⟨?_, ?_⟩
    · show t.state.map c2.val = _
      rw [t_state]; exact zmap _ h0
    · rw [t_vals _ g1' g2, map_val_ext l1 e2, hml, hDe x02]
  · rintro ⟨⟨⟨-, -, g⟩, -⟩, -⟩
    exact g.1
  rintro β c3 e3 β1 β2 β3 β4
  have x03 := x02.trans e3
  have nil_vals : ∀ {r : TrVar} (w : ℕ → ZMod p), r.vars = [] → r.vals w = [] := by
    intro r w hr; unfold TrVar.vals; rw [hr]; rfl
  refine chal_bind (s := nextState f Rescue.zeroVec D.d0) (L := []) h hbp hbQ ht.2.1 e3.wf (hr.ext x03) (x03.ultra.trans hu) β2 ?_ ?_ ?_
  · rintro ⟨-, g⟩ -
    exact ⟨g, nil_vals _ β3⟩
  · rintro ⟨⟨⟨⟨-, -, g⟩, -⟩, -⟩, -⟩
    exact g.2.1
  rintro γ c4 e4 γ1 γ2 γ3 γ4
  have x04 := x03.trans e4
  refine chal_bind (L := D.d1) (s := nextState f (nextState f Rescue.zeroVec D.d0) []) h hbp hbQ ht.2.2.1 e4.wf (hr.ext x04) (x04.ultra.trans hu) (γ2.points (hb.prodPerm.ext x04)) ?_ ?_ ?_
  · rintro ⟨-, g⟩ -
    refine ⟨g, ?_⟩
    rw [vals_points, nil_vals _ γ3, ← hDe x04]; rfl
  · rintro ⟨⟨⟨⟨⟨-, -, g⟩, -⟩, -⟩, -⟩, -⟩
    exact g.2.2.1
  rintro α c5 e5 α1 α2 α3 α4
  have x05 := x04.trans e5
  refine chal_bind (L := D.d2) (s := nextState f (nextState f (nextState f Rescue.zeroVec D.d0) []) D.d1) h hbp hbQ ht.2.2.2.1 e5.wf (hr.ext x05) (x05.ultra.trans hu) (α2.points (hb.quot.ext x05)) ?_ ?_ ?_
  · rintro ⟨-, g⟩ -
    refine ⟨g, ?_⟩
    rw [vals_points, nil_vals _ α3, ← hDe x05]; rfl
  · rintro ⟨⟨⟨⟨⟨⟨-, -, g⟩, -⟩, -⟩, -⟩, -⟩, -⟩
    exact g.2.2.2.1
  rintro ζ c6 e6 ζ1 ζ2 ζ3 ζ4
  have x06 := x05.trans e6
  refine Spec.bind (evalsAll_spec (C := True) _ e6.wf ζ2 fun x hx => (hb.evals x hx).ext x06) (fun _ _ _ => trivial) e6.wf ?_
  rintro t' c7 e7 ⟨i7, s7⟩
  have x07 := x06.trans e7
  refine chal_bind (L := D.d3) (s := nextState f (nextState f (nextState f (nextState f Rescue.zeroVec D.d0) []) D.d1) D.d2)
    h hbp hbQ ht.2.2.2.2.1 e7.wf (hr.ext x07) (x07.ultra.trans hu) i7 ?_ ?_ ?_
  · rintro ⟨⟨-, g⟩, g'⟩ -
    refine ⟨?_, ?_⟩
    · rw [s7, ← g]
      obtain ⟨h1, h2, h3, h4⟩ := ζ2.1
      simp [Vec.map, e7.val _ h1, e7.val _ h2, e7.val _ h3, e7.val _ h4]
    · rw [g', nil_vals _ ζ3, ← hDe x07]; rfl
  · rintro ⟨⟨⟨⟨⟨⟨⟨⟨-, -, g⟩, -⟩, -⟩, -⟩, -⟩, -⟩, -⟩, -⟩
    exact g.2.2.2.2.1
  rintro v c8 e8 v1 v2 v3 v4
  have x08 := x07.trans e8
  have hop : PtsIn [b.opening] c8 ∧ PtsIn [b.shifted] c8 :=
    ⟨fun P hP => (hb.opens.ext x08) P (by simp at hP; simp [hP]), fun P hP => (hb.opens.ext x08) P (by simp at hP; simp [hP])⟩
  have u_vals : ∀ w : ℕ → ZMod p, ((v.2.points [b.opening]).points [b.shifted]).vals w = ptVals w [b.opening, b.shifted] := by
    intro w
    rw [vals_points, vals_points, nil_vals _ v3]
    simp [ptVals]
  refine chal_bind (L := D.d4) (s := nextState f (nextState f (nextState f (nextState f (nextState f Rescue.zeroVec D.d0) []) D.d1) D.d2) D.d3)
    h hbp hbQ ht.2.2.2.2.2 e8.wf (hr.ext x08) (x08.ultra.trans hu) ((v2.points hop.1).points hop.2) ?_ ?_ ?_
  · rintro ⟨-, g⟩ -
    exact ⟨g, by rw [u_vals, ← hDe x08]; rfl⟩
  · rintro ⟨⟨⟨⟨⟨⟨⟨⟨⟨-, -, g⟩, -⟩, -⟩, -⟩, -⟩, -⟩, -⟩, -⟩, -⟩
    exact g.2.2.2.2.2
  rintro u c9 e9 u1 u2 u3 u4
  have y89 := e9
  have y79 := e8.trans y89
  have y69 := e7.trans y79
  have y59 := e6.trans y69
  have y49 := e5.trans y59
  have y39 := e4.trans y49
  have y29 := e3.trans y39
  have y19 := e2.trans y29
  refine Spec.pure e9.wf ⟨⟨y39.lt β1, y49.lt γ1, y59.lt α1, y69.lt ζ1, y89.lt v1, u1⟩,
    ⟨y39.lt β2.1.1, y49.lt γ2.1.1, y59.lt α2.1.1, y69.lt ζ2.1.1, y89.lt v2.1.1, u2.1.1⟩, fun v hv => y19.lt (l1 v hv), ?_, ?_⟩ ?_
  · show m.1.map c9.val = ml
    rw [map_val_ext l1 y19, hml]
  · refine ⟨?_, ?_, ?_, ?_, ?_, u4⟩
    · show (c9.val β.1).val = g.β (c9.val β.2.state.a)
      rw [y39.val _ β1, y39.val _ β2.1.1, β4]
    · show (c9.val γ.1).val = g.γ (c9.val γ.2.state.a)
      rw [y49.val _ γ1, y49.val _ γ2.1.1, γ4]
    · show (c9.val α.1).val = g.α (c9.val α.2.state.a)
      rw [y59.val _ α1, y59.val _ α2.1.1, α4]
    · show (c9.val ζ.1).val = g.ζ (c9.val ζ.2.state.a)
      rw [y69.val _ ζ1, y69.val _ ζ2.1.1, ζ4]
    · show (c9.val v.1).val = g.v (c9.val v.2.state.a)
      rw [y89.val _ v1, y89.val _ v2.1.1, v4]
  · intro w w0 _ ru ru' rv rv' rt rζ rζ' rα rα' rγ rγ' rβ rβ' r2 r1
    refine ⟨?_, rβ', rγ', rα', rζ', rv', ru'⟩
    set D' := dataOf w (m.1.map w) vks pis b with hD'
    have E1 : β.2.state.map w = nextState f Rescue.zeroVec D'.d0 := by
      rw [rβ, t_vals w r1 r2]
      show nextState f (t.state.map w) _ = _
      rw [t_state, zmap _ w0]
    have E2 : γ.2.state.map w = nextState f (nextState f Rescue.zeroVec D'.d0) [] := by rw [rγ, E1, nil_vals _ β3]
    have E3 : α.2.state.map w = nextState f (nextState f (nextState f Rescue.zeroVec D'.d0) []) D'.d1 := by
      rw [rα, vals_points, nil_vals _ γ3]
      show nextState f (γ.2.state.map w) _ = _
      rw [E2]; rfl
    have E4 : ζ.2.state.map w = nextState f (nextState f (nextState f (nextState f Rescue.zeroVec D'.d0) []) D'.d1) D'.d2 := by
      rw [rζ, vals_points, nil_vals _ α3]
      show nextState f (α.2.state.map w) _ = _
      rw [E3]; rfl
    have E5 : v.2.state.map w = nextState f (nextState f (nextState f (nextState f (nextState f Rescue.zeroVec D'.d0) [])
        D'.d1) D'.d2) D'.d3 := by
      rw [rv, rt, nil_vals _ ζ3, s7, E4]; rfl
    have E6 : u.2.state.map w = nextState f (nextState f (nextState f (nextState f (nextState f (nextState f Rescue.zeroVec
        D'.d0) []) D'.d1) D'.d2) D'.d3) D'.d4 := by
      rw [ru, u_vals]
      show nextState f (v.2.state.map w) _ = _
      rw [E5]; rfl
    have ha : ∀ s : Vec ℕ, w s.a = (s.map w).a := fun _ => rfl
    simp only [Six.map, ha, E1, E2, E3, E4, E5, E6]
    rfl

/-! ### The elements -/

variable {I : Info p} {H : Prop}

theorem newUnchecked_hol (h : Par I Q k) {c : Circ p} (hc : Ctx H k c) {v : ℕ} (hv : v < c.numVars)
    (hlt : (c.val v).val < Q) :
    Spec (newUnchecked v I.m I.tpm) c H (fun x c' => Hol H I.mod (((c.val v).val : ℕ) : ZMod Q) x c')
      (fun x w => w x.v0 + I.mod.tpm * w x.v1 = w v) := by
  have hcv : c.val v = (((c.val v).val : ℕ) : ZMod p) := by rw [ZMod.natCast_val, ZMod.cast_id]
  have hnew := FpElem.new_mul h.mul (ZMod.val_lt (c.val v))
  rw [← hcv] at hnew
  rw [h.m, h.tpm]
  refine Spec.conseq hc.wf (newUnchecked_spec hc.wf v I.mod.m (some I.mod.tpm)) (fun _ _ _ => ⟨hv, _, hnew⟩) ?_ ?_
  · rintro x c' _ ⟨g1, g2, g3, e, g4, g5, g6⟩
    rw [hnew] at g4
    cases g4
    refine ⟨g1, ⟨g2, g3⟩, fun _ => ?_⟩
    unfold St
    rw [g5, g6, ZMod.val_natCast_of_lt hlt]
    have hvp := ZMod.val_lt (c.val v)
    exact ⟨ZMod.val_natCast_of_lt ((Nat.mod_le _ _).trans_lt hvp), ZMod.val_natCast_of_lt ((Nat.div_le_self _ _).trans_lt hvp)⟩
  · intro x w _ _ g
    exact g

/-- the elements stand for the challenges `x` -/
structure ChalHol (H : Prop) (q : FpElem p) (x : Six (ZMod Q)) (ch : ChalVar p) (c : Circ p) : Prop where
  α : Hol H q x.α ch.α c
  α2 : Hol H q (x.α * x.α) ch.α2 c
  α3 : Hol H q (x.α * x.α * x.α) ch.α3 c
  β : Hol H q x.β ch.β c
  γ : Hol H q x.γ ch.γ c
  ζ : Hol H q x.ζ ch.ζ c
  v : Hol H q x.v ch.v c
  u : Hol H q x.u ch.u c

/-- the elements of the challenges in an assignment -/
structure ChalRel (Q : ℕ) (q : FpElem p) (d : Six ℕ) (ch : ChalVar p) (w : ℕ → ZMod p) : Prop where
  α : w ch.α.v0 + q.tpm * w ch.α.v1 = w d.α
  α2 : ch.α.Small q w → ch.α2.Small q w ∧ El Q q w ch.α2 = El Q q w ch.α ^ 2
  α3 : ch.α.Small q w → ch.α3.Small q w ∧ El Q q w ch.α3 = El Q q w ch.α ^ 3
  β : w ch.β.v0 + q.tpm * w ch.β.v1 = w d.β
  γ : w ch.γ.v0 + q.tpm * w ch.γ.v1 = w d.γ
  ζ : w ch.ζ.v0 + q.tpm * w ch.ζ.v1 = w d.ζ
  v : w ch.v.v0 + q.tpm * w ch.v.v1 = w d.v
  u : w ch.u.v0 + q.tpm * w ch.u.v1 = w d.u

theorem toElems_spec (h : Par I Q k) {c : Circ p} (hc : Ctx H k c) {d : Six ℕ} (hd : d.All (· < c.numVars))
    (hlt : d.All fun v => (c.val v).val < Q) :
    Spec (toElems I d) c H
      (fun ch c' => ChalHol H I.mod (d.map fun v => (((c.val v).val : ℕ) : ZMod Q)) ch c')
      (fun ch w => ChalRel Q I.mod d ch w) := by
  obtain ⟨d1, d2, d3, d4, d5, d6⟩ := hd
  obtain ⟨t1, t2, t3, t4, t5, t6⟩ := hlt
  unfold toElems
  refine hbind hc.wf (newUnchecked_hol h hc d3 t3) ?_
  intro α c1 e1 hα
  refine hbind e1.wf (VerifierPoly.mul_spec h (hc.ext e1) hα hα) ?_
  intro α2 c2 e2 hα2
  refine hbind e2.wf (VerifierPoly.mul_spec h ((hc.ext e1).ext e2) hα2 (hα.ext e2)) ?_
  intro α3 c3 e3 hα3
  have x3 := e1.trans (e2.trans e3)
  refine hbind e3.wf (newUnchecked_hol h (hc.ext x3) (x3.lt d1) (by rw [x3.val _ d1]; exact t1)) ?_
  intro β c4 e4 hβ
  have x4 := x3.trans e4
  refine hbind e4.wf (newUnchecked_hol h (hc.ext x4) (x4.lt d2) (by rw [x4.val _ d2]; exact t2)) ?_
  intro γ c5 e5 hγ
  have x5 := x4.trans e5
  refine hbind e5.wf (newUnchecked_hol h (hc.ext x5) (x5.lt d4) (by rw [x5.val _ d4]; exact t4)) ?_
  intro ζ c6 e6 hζ
  have x6 := x5.trans e6
  refine hbind e6.wf (newUnchecked_hol h (hc.ext x6) (x6.lt d6) (by rw [x6.val _ d6]; exact t6)) ?_
  intro u c7 e7 hu
  have x7 := x6.trans e7
  refine hbind e7.wf (newUnchecked_hol h (hc.ext x7) (x7.lt d5) (by rw [x7.val _ d5]; exact t5)) ?_
  intro v c8 e8 hv
  rw [x3.val _ d1] at hβ
  rw [x4.val _ d2] at hγ
  rw [x5.val _ d4] at hζ
  rw [x6.val _ d6] at hu
  rw [x7.val _ d5] at hv
  have y7 := e7.trans e8
  have y6 := e6.trans y7
  have y5 := e5.trans y6
  have y4 := e4.trans y5
  have y3 := e3.trans y4
  refine Spec.pure e8.wf ⟨hα.ext (e2.trans y3), hα2.ext y3, hα3.ext y4, hβ.ext y5, hγ.ext y6, hζ.ext y7, hv, hu.ext e8⟩ ?_
  intro w _ _ rv ru rζ rγ rβ r3 r2 r1
  refine ⟨r1, fun hs => ?_, fun hs => ?_, rβ, rγ, rζ, rv, ru⟩
  · obtain ⟨g1, g2⟩ := r2 hs hs
    exact ⟨g1, by rw [g2, sq]⟩
  · obtain ⟨g1, g2⟩ := r2 hs hs
    obtain ⟨g3, g4⟩ := r3 g1 hs
    exact ⟨g3, by rw [g4, g2]; ring⟩

/-! ### Everything -/

theorem challengesW_spec (hI : Par I Q k) (h : HashOk K f) (hbp : modulusBits p = 377) (hbQ : modulusBits Q = 253)
    {tr : Six (ℕ → Build p ℕ)} {P : Six (ZMod p → Prop)} {g : Six (ZMod p → ℕ)} (ht : Six.All₃ (TrOk k Q) tr P g)
    {vks : List (VkVar Q)} {pis : List (List (FpElemVar p))} {b : ProofVar p} {extra : Option (List ℕ)}
    {ml : List (ZMod p)} (hm : msgElems p extra = .ok ml) {c : Circ p} (hc : Ctx H k c)
    (hv : ∀ x ∈ vks.zip pis, VkIn x c) (hb : ProofIn b c) :
    Spec (challengesW tr K I vks pis b extra) c
      ((vks.length = b.prodPerm.length ∧ vks.length = pis.length) ∧ H ∧
        Six.All₂ (fun P x => P x) P (hashes f (dataOf c.val ml vks pis b)))
      (fun r c' => r.2.ch.All (· < c'.numVars) ∧ r.2.hash.All (· < c'.numVars) ∧ (∀ v ∈ r.2.msg, v < c'.numVars) ∧
        r.2.msg.map c'.val = ml ∧ Six.All₃ (fun g a b => (c'.val b).val = g (c'.val a)) g r.2.hash r.2.ch ∧
        ChalHol H I.mod (r.2.ch.map fun v => (((c'.val v).val : ℕ) : ZMod Q)) r.1 c')
      (fun r w => r.2.hash.map w = hashes f (dataOf w (r.2.msg.map w) vks pis b) ∧
        Six.All₂ (TrRel k w) r.2.hash r.2.ch ∧ ChalRel Q I.mod r.2.ch r.1 w) := by
  unfold challengesW
  refine Spec.bind (drawsW_spec (H := H) h hbp hbQ ht hm hc.wf hc.rng hc.ultra hv hb) (fun h _ _ => h) hc.wf ?_
  rintro d c1 e1 ⟨l1, l2, l3, h1, h2⟩
  obtain ⟨t1, t2, t3, t4, t5, t6⟩ := ht
  obtain ⟨s1, s2, s3, s4, s5, s6⟩ := h2
  refine Spec.bind (toElems_spec hI (hc.ext e1) l1 ⟨s1.trans_lt (t1.lt _), s2.trans_lt (t2.lt _), s3.trans_lt (t3.lt _),
    s4.trans_lt (t4.lt _), s5.trans_lt (t5.lt _), s6.trans_lt (t6.lt _)⟩)
    (fun h _ _ => h.1.2.1) e1.wf ?_
  intro ch c2 e2 hch
  obtain ⟨a1, a2, a3, a4, a5, a6⟩ := l1
  obtain ⟨b1, b2, b3, b4, b5, b6⟩ := l2
  refine Spec.pure e2.wf ⟨⟨e2.lt a1, e2.lt a2, e2.lt a3, e2.lt a4, e2.lt a5, e2.lt a6⟩,
    ⟨e2.lt b1, e2.lt b2, e2.lt b3, e2.lt b4, e2.lt b5, e2.lt b6⟩, fun v hv => e2.lt (l3 v hv), ?_, ?_, ?_⟩ ?_
  · show d.msg.map c2.val = ml
    rw [map_val_ext l3 e2, h1]
  · refine ⟨?_, ?_, ?_, ?_, ?_, ?_⟩
    · show (c2.val d.ch.β).val = g.β (c2.val d.hash.β)
      rw [e2.val _ a1, e2.val _ b1]; exact s1
    · show (c2.val d.ch.γ).val = g.γ (c2.val d.hash.γ)
      rw [e2.val _ a2, e2.val _ b2]; exact s2
    · show (c2.val d.ch.α).val = g.α (c2.val d.hash.α)
      rw [e2.val _ a3, e2.val _ b3]; exact s3
    · show (c2.val d.ch.ζ).val = g.ζ (c2.val d.hash.ζ)
      rw [e2.val _ a4, e2.val _ b4]; exact s4
    · show (c2.val d.ch.v).val = g.v (c2.val d.hash.v)
      rw [e2.val _ a5, e2.val _ b5]; exact s5
    · show (c2.val d.ch.u).val = g.u (c2.val d.hash.u)
      rw [e2.val _ a6, e2.val _ b6]; exact s6
  · have : (d.ch.map fun v => (((c2.val v).val : ℕ) : ZMod Q)) = d.ch.map fun v => (((c1.val v).val : ℕ) : ZMod Q) := by
      simp only [Six.map, e2.val _ a1, e2.val _ a2, e2.val _ a3, e2.val _ a4, e2.val _ a5, e2.val _ a6]
    show ChalHol H I.mod (d.ch.map fun v => (((c2.val v).val : ℕ) : ZMod Q)) ch c2
    rw [this]
    exact hch
  · rintro w _ _ g1 ⟨g2, g3⟩
    exact ⟨g2, g3, g1⟩

/-! ### The circuit does not depend on the truncations or the values of the message -/

theorem createAll_rel : ∀ (xs ys : List (ZMod p)), xs.length = ys.length → Rel (createAll xs) (createAll ys)
  | [], [], _ => Rel.pure _
  | x :: xs, y :: ys, h => Rel.bind (Rel.createVariable x y) fun _ =>
    Rel.bind (createAll_rel xs ys (by simpa using h)) fun _ => Rel.pure _

theorem elems_rel (t : TrVar) (xs : List (FpElemVar p)) : Rel (t.elems xs) (t.elems xs) :=
  Rel.bind (toVars_rel xs) fun _ => Rel.pure _

theorem vksAndInputs_rel : ∀ (xs : List (VkVar Q × List (FpElemVar p))) (t : TrVar),
    Rel (t.vksAndInputs xs) (t.vksAndInputs xs)
  | [], _ => Rel.pure _
  | _ :: xs, _ => Rel.bind (elems_rel _ _) fun t => vksAndInputs_rel xs t

theorem evalsAll_rel : ∀ (xs : List (EvalsVar p)) (t : TrVar), Rel (t.evalsAll xs) (t.evalsAll xs)
  | [], _ => Rel.pure _
  | _ :: xs, _ => Rel.bind (elems_rel _ _) fun t => evalsAll_rel xs t

theorem extra_rel (t : TrVar) {e e' : Option (List ℕ)} {l l' : List (ZMod p)} (h : msgElems p e = .ok l)
    (h' : msgElems p e' = .ok l') (hl : l.length = l'.length) (hs : e.isSome = e'.isSome) :
    Rel (t.extra e : Build p (List ℕ × TrVar)) (t.extra e') := by
  cases e with
  | none =>
    cases e' with
    | none => exact Rel.pure _
    | some m => cases hs
  | some m =>
    cases e' with
    | none => cases hs
    | some m' =>
      show Rel (match Plonk.messageElems p m with
        | .error _ => Build.fail .panic
        | .ok l => createAll l >>= fun vs => pure (vs, t.push vs)) (match Plonk.messageElems p m' with
        | .error _ => Build.fail .panic
        | .ok l => createAll l >>= fun vs => pure (vs, t.push vs))
      rw [show msgElems p (some m) = Plonk.messageElems p m from rfl] at h
      rw [show msgElems p (some m') = Plonk.messageElems p m' from rfl] at h'
      rw [h, h']
      exact Rel.bind (createAll_rel _ _ hl) fun _ => Rel.pure _

theorem unwrap_rel {α : Type} {m m' : Build p α} (h : Rel m m') : Rel (unwrap m) (unwrap m') := by
  intro c d hs v c' v' d' h1 h2
  unfold unwrap at h1 h2
  split at h1
  · split at h2
    · rename_i a ha _ b hb
      cases h1; cases h2
      exact h c d hs _ _ _ _ ha hb
    · cases h2
  · cases h1

theorem challengeW_rel {tr tr' : ℕ → Build p ℕ} (h : ∀ a, Rel (tr a) (tr' a)) (t : TrVar) :
    Rel (t.challengeW tr K Q) (t.challengeW tr' K Q) := by
  unfold TrVar.challengeW
  refine Rel.bind Rel.supportLookup fun l => Rel.guard (Rel.guard ?_)
  refine Rel.bind (unwrap_rel (rescueSpongeWithPadding_rel _ _ _)) fun res => ?_
  split
  · exact Rel.bind (h _) fun _ => Rel.pure _
  · exact Rel.failL _ _

theorem challengesW_rel (hI : Par I Q k) {tr tr' : Six (ℕ → Build p ℕ)}
    (h : Six.All₂ (fun t t' => ∀ a, Rel (t a) (t' a)) tr tr') (vks : List (VkVar Q)) (pis : List (List (FpElemVar p)))
    (b : ProofVar p) {e e' : Option (List ℕ)} {l l' : List (ZMod p)} (he : msgElems p e = .ok l)
    (he' : msgElems p e' = .ok l') (hl : l.length = l'.length) (hs : e.isSome = e'.isSome) :
    Rel (challengesW tr K I vks pis b e) (challengesW tr' K I vks pis b e') := by
  obtain ⟨h1, h2, h3, h4, h5, h6⟩ := h
  unfold challengesW drawsW
  refine Rel.bind (Rel.guard ?_) fun d => Rel.bind ?_ fun _ => Rel.pure _
  · exact Rel.bind (extra_rel _ he he' hl hs) fun _ => Rel.bind (vksAndInputs_rel _ _) fun _ =>
      Rel.bind (challengeW_rel h1 _) fun _ => Rel.bind (challengeW_rel h2 _) fun _ => Rel.bind (challengeW_rel h3 _) fun _ =>
      Rel.bind (challengeW_rel h4 _) fun _ => Rel.bind (evalsAll_rel _ _) fun _ => Rel.bind (challengeW_rel h5 _) fun _ =>
      Rel.bind (challengeW_rel h6 _) fun _ => Rel.pure _
  · unfold toElems
    rw [hI.tpm]
    exact Rel.bind (newUnchecked_rel _ _ _) fun _ => Rel.bind (modMul_rel _ _ _) fun _ => Rel.bind (modMul_rel _ _ _) fun _ =>
      Rel.bind (newUnchecked_rel _ _ _) fun _ => Rel.bind (newUnchecked_rel _ _ _) fun _ =>
      Rel.bind (newUnchecked_rel _ _ _) fun _ => Rel.bind (newUnchecked_rel _ _ _) fun _ =>
      Rel.bind (newUnchecked_rel _ _ _) fun _ => Rel.pure _

end

end Verif.Circuit.TranscriptVar
