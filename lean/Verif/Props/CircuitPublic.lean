import Verif.Props.CircuitRange
import Verif.Circuit.LookupSpec

/-!
# C61, C62, C63: shape of the circuit, public inputs, key-value lookups
-/

namespace Verif.Props.Circuit

open Verif.Circuit

variable {p : ℕ}

/-! ## C61: a program of API calls yields a circuit that does not depend on the witness -/

/-- API calls; the arguments are variables, except for the secret values of the `create…`
calls and the constants. -/
inductive Call (p : ℕ) where
  | createVariable (x : ZMod p)
  | createBooleanVariable (b : Bool)
  | createPublicVariable (x : ZMod p)
  | createConstantVariable (x : ZMod p)
  | setVariablePublic (v : ℕ)
  | enforceConstant (v : ℕ) (x : ZMod p)
  | enforceBool (v : ℕ)
  | enforceEqual (a b : ℕ)
  | addGate (a b y : ℕ)
  | subGate (a b y : ℕ)
  | mulGate (a b y : ℕ)
  | add (a b : ℕ)
  | sub (a b : ℕ)
  | mul (a b : ℕ)
  | genQuadPoly (a0 a1 a2 a3 : ℕ) (q0 q1 q2 q3 m0 m1 k : ZMod p)
  | lc (a0 a1 a2 a3 : ℕ) (q0 q1 q2 q3 : ZMod p)
  | mulAdd (a0 a1 a2 a3 : ℕ) (m0 m1 : ZMod p)
  | sum (l : List ℕ)
  | addConstant (a : ℕ) (k : ZMod p)
  | mulConstant (a : ℕ) (k : ZMod p)
  | power11Gen (a : ℕ)
  | logicOrGate (a b : ℕ)
  | isZero (a : ℕ)
  | isEqual (a b : ℕ)
  | nonZeroGate (a : ℕ)
  | logicAnd (a b : ℕ)
  | logicAndAll (l : List ℕ)
  | logicOr (a b : ℕ)
  | conditionalSelect (b x y : ℕ)
  | unpack (a n : ℕ)
  | enforceInRange (a n : ℕ)
  | isInRange (a n : ℕ)
  | isLt (a b : ℕ)
  | isLeq (a b : ℕ)
  | enforceLt (a b : ℕ)
  | enforceLeq (a b : ℕ)
  | isLtConstant (a : ℕ) (k : ZMod p)
  | isGtConstant (a : ℕ) (k : ZMod p)
  | enforceLtConstant (a : ℕ) (k : ZMod p)
  | truncate (a l : ℕ)

/-- the call, returning the list of created variables -/
def Call.run : Call p → Build p (List ℕ)
  | .createVariable x => do let v ← Verif.Circuit.createVariable x; pure [v]
  | .createBooleanVariable x => do let v ← Verif.Circuit.createBooleanVariable x; pure [v]
  | .createPublicVariable x => do let v ← Verif.Circuit.createPublicVariable x; pure [v]
  | .createConstantVariable x => do let v ← Verif.Circuit.createConstantVariable x; pure [v]
  | .setVariablePublic v => do Verif.Circuit.setVariablePublic v; pure []
  | .enforceConstant v x => do Verif.Circuit.enforceConstant v x; pure []
  | .enforceBool v => do Verif.Circuit.enforceBool v; pure []
  | .enforceEqual a b => do Verif.Circuit.enforceEqual a b; pure []
  | .addGate a b y => do Verif.Circuit.addGate a b y; pure []
  | .subGate a b y => do Verif.Circuit.subGate a b y; pure []
  | .mulGate a b y => do Verif.Circuit.mulGate a b y; pure []
  | .add a b => do let v ← Verif.Circuit.add a b; pure [v]
  | .sub a b => do let v ← Verif.Circuit.sub a b; pure [v]
  | .mul a b => do let v ← Verif.Circuit.mul a b; pure [v]
  | .genQuadPoly a0 a1 a2 a3 q0 q1 q2 q3 m0 m1 k => do
    let v ← Verif.Circuit.genQuadPoly a0 a1 a2 a3 q0 q1 q2 q3 m0 m1 k; pure [v]
  | .lc a0 a1 a2 a3 q0 q1 q2 q3 => do
    let v ← Verif.Circuit.lc a0 a1 a2 a3 q0 q1 q2 q3; pure [v]
  | .mulAdd a0 a1 a2 a3 m0 m1 => do let v ← Verif.Circuit.mulAdd a0 a1 a2 a3 m0 m1; pure [v]
  | .sum l => do let v ← Verif.Circuit.sum l; pure [v]
  | .addConstant a k => do let v ← Verif.Circuit.addConstant a k; pure [v]
  | .mulConstant a k => do let v ← Verif.Circuit.mulConstant a k; pure [v]
  | .power11Gen a => do let v ← Verif.Circuit.power11Gen a; pure [v]
  | .logicOrGate a b => do Verif.Circuit.logicOrGate a b; pure []
  | .isZero a => do let v ← Verif.Circuit.isZero a; pure [v]
  | .isEqual a b => do let v ← Verif.Circuit.isEqual a b; pure [v]
  | .nonZeroGate a => do Verif.Circuit.nonZeroGate a; pure []
  | .logicAnd a b => do let v ← Verif.Circuit.logicAnd a b; pure [v]
  | .logicAndAll l => do let v ← Verif.Circuit.logicAndAll l; pure [v]
  | .logicOr a b => do let v ← Verif.Circuit.logicOr a b; pure [v]
  | .conditionalSelect b x y => do let v ← Verif.Circuit.conditionalSelect b x y; pure [v]
  | .unpack a n => Verif.Circuit.unpack a n
  | .enforceInRange a n => do Verif.Circuit.enforceInRange a n; pure []
  | .isInRange a n => do let v ← Verif.Circuit.isInRange a n; pure [v]
  | .isLt a b => do let v ← Verif.Circuit.isLt a b; pure [v]
  | .isLeq a b => do let v ← Verif.Circuit.isLeq a b; pure [v]
  | .enforceLt a b => do Verif.Circuit.enforceLt a b; pure []
  | .enforceLeq a b => do Verif.Circuit.enforceLeq a b; pure []
  | .isLtConstant a k => do let v ← Verif.Circuit.isLtConstant a k; pure [v]
  | .isGtConstant a k => do let v ← Verif.Circuit.isGtConstant a k; pure [v]
  | .enforceLtConstant a k => do Verif.Circuit.enforceLtConstant a k; pure []
  | .truncate a l => do let v ← Verif.Circuit.truncate a l; pure [v]

/-- the call without its secret value -/
def Call.public : Call p → Call p
  | .createVariable _ => .createVariable 0
  | .createBooleanVariable _ => .createBooleanVariable false
  | .createPublicVariable _ => .createPublicVariable 0
  | c => c

/-- a program: calls one after another, with all created variables -/
def runCalls : List (Call p) → Build p (List ℕ)
  | [] => pure []
  | c :: cs => do
    let vs ← c.run
    let ws ← runCalls cs
    pure (vs ++ ws)

theorem Call.run_rel (c d : Call p) (h : c.public = d.public) : Rel c.run d.run := by
  have key : ∀ {m m' : Build p ℕ}, Rel m m' →
      Rel (do let v ← m; pure [v] : Build p (List ℕ)) (do let v ← m'; pure [v]) :=
    fun h => Rel.bind h (fun _ => Rel.pure _)
  have keyU : ∀ {m m' : Build p Unit}, Rel m m' →
      Rel (do m; pure [] : Build p (List ℕ)) (do m'; pure []) :=
    fun h => Rel.bind h (fun _ => Rel.pure _)
  cases c <;> cases d <;> simp only [Call.public, reduceCtorEq] at h <;> (try cases h) <;> unfold Call.run
  case createVariable.createVariable => exact key (Rel.createVariable _ _)
  case createBooleanVariable.createBooleanVariable => exact key (createBooleanVariable_rel _ _)
  case createPublicVariable.createPublicVariable => exact key (createPublicVariable_rel _ _)
  case createConstantVariable.refl => exact key (createConstantVariable_rel _)
  case setVariablePublic.refl => exact keyU (Rel.setVariablePublic _)
  case enforceConstant.refl => exact keyU (enforceConstant_rel _ _)
  case enforceBool.refl => exact keyU (enforceBool_rel _)
  case enforceEqual.refl => exact keyU (enforceEqual_rel _ _)
  case addGate.refl => exact keyU (addGate_rel _ _ _)
  case subGate.refl => exact keyU (subGate_rel _ _ _)
  case mulGate.refl => exact keyU (mulGate_rel _ _ _)
  case add.refl => exact key (add_rel _ _)
  case sub.refl => exact key (sub_rel _ _)
  case mul.refl => exact key (mul_rel _ _)
  case genQuadPoly.refl => exact key (genQuadPoly_rel _ _ _ _ _ _ _ _ _ _ _)
  case lc.refl => exact key (lc_rel _ _ _ _ _ _ _ _)
  case mulAdd.refl => exact key (mulAdd_rel _ _ _ _ _ _)
  case sum.refl => exact key (sum_rel _)
  case addConstant.refl => exact key (addConstant_rel _ _)
  case mulConstant.refl => exact key (mulConstant_rel _ _)
  case power11Gen.refl => exact key (power11Gen_rel _)
  case logicOrGate.refl => exact keyU (logicOrGate_rel _ _)
  case isZero.refl => exact key (isZero_rel _)
  case isEqual.refl => exact key (isEqual_rel _ _)
  case nonZeroGate.refl => exact keyU (nonZeroGate_rel _)
  case logicAnd.refl => exact key (logicAnd_rel _ _)
  case logicAndAll.refl => exact key (logicAndAll_rel _)
  case logicOr.refl => exact key (logicOr_rel _ _)
  case conditionalSelect.refl => exact key (conditionalSelect_rel _ _ _)
  case unpack.refl => exact unpack_rel _ _
  case enforceInRange.refl => exact keyU (enforceInRange_rel _ _)
  case isInRange.refl => exact key (isInRange_rel _ _)
  case isLt.refl => exact key (isLt_rel _ _)
  case isLeq.refl => exact key (isLeq_rel _ _)
  case enforceLt.refl => exact keyU (enforceLt_rel _ _)
  case enforceLeq.refl => exact keyU (enforceLeq_rel _ _)
  case isLtConstant.refl => exact key (const_rel (fun b => isLt_rel _ b) _ _)
  case isGtConstant.refl =>
    exact key (Rel.bind (Rel.checkVar _) (fun _ => isGtConstantInternal_rel _ _))
  case enforceLtConstant.refl => exact keyU (const_rel (fun b => enforceLt_rel _ b) _ _)
  case truncate.refl => exact key (truncate_rel _ _)

/-- **C61.** Two runs of the same program (the same calls, with any two choices of the
secret values) that both succeed yield the same variables and the same circuit: the same
gates with the same selectors and wires, the same public-input positions, range-checked
variables and tables.  The circuits differ only in the stored witness. -/
theorem C61_circuit_independent_of_witness (ultra : Option ℕ) (prog prog' : List (Call p))
    (h : prog.map Call.public = prog'.map Call.public) (vs vs' : List ℕ) (c c' : Circ p)
    (h1 : runCalls prog (Circ.new p ultra) = .ok (vs, c))
    (h2 : runCalls prog' (Circ.new p ultra) = .ok (vs', c')) :
    vs = vs' ∧ c.rows = c'.rows ∧ c.numVars = c'.numVars ∧ c.pubIds = c'.pubIds ∧
      c.rangeVars = c'.rangeVars ∧ c.tableGateIds = c'.tableGateIds := by
  have key : ∀ prog prog' : List (Call p), prog.map Call.public = prog'.map Call.public →
      Rel (runCalls prog) (runCalls prog') := by
    intro prog
    induction prog with
    | nil =>
      intro prog' h
      have : prog' = [] := by simpa using h.symm
      subst this
      exact Rel.pure _
    | cons c cs ih =>
      intro prog' h
      rcases prog' with _ | ⟨d, ds⟩
      · simp at h
      · simp only [List.map_cons, List.cons.injEq] at h
        unfold runCalls
        exact Rel.bind (Call.run_rel c d h.1) (fun vs =>
          Rel.bind (ih ds h.2) (fun ws => Rel.pure _))
  obtain ⟨e, hs⟩ := key prog prog' h _ _ (Same.refl _) _ _ _ _ h1 h2
  exact ⟨e, hs.rows, hs.numVars, hs.pubIds, hs.rangeVars, hs.tgi⟩

/-- two programs with different secrets -/
example : ([.createVariable 3, .createBooleanVariable true, .isZero 2, .conditionalSelect 3 2 4] :
      List (Call 7)).map Call.public =
    [.createVariable 0, .createBooleanVariable false, .isZero 2, .conditionalSelect 3 2 4].map
      Call.public ∧
    runOk (runCalls ([.createVariable 3, .createBooleanVariable true, .isZero 2,
      .conditionalSelect 3 2 4] : List (Call 7))) (Circ.new 7 none) = true ∧
    runOk (runCalls ([.createVariable 0, .createBooleanVariable false, .isZero 2,
      .conditionalSelect 3 2 4] : List (Call 7))) (Circ.new 7 none) = true := by
  refine ⟨rfl, ?_, ?_⟩ <;> decide +kernel

/-! ## C62: public inputs -/

theorem mapM_except_append {α β ε : Type} (f : α → Except ε β) (l : List α) (x : α) :
    (l ++ [x]).mapM f = (do let ys ← l.mapM f; let y ← f x; pure (ys ++ [y]) : Except ε _) := by
  induction l with
  | nil =>
    simp only [List.nil_append, List.mapM_cons, List.mapM_nil]
    rfl
  | cons a l ih =>
    simp only [List.cons_append, List.mapM_cons, ih]
    rcases f a with e | y
    · rfl
    · rcases l.mapM f with e | ys
      · rfl
      · rcases f x with e | z <;> rfl

theorem mapM_except_congr {α β ε : Type} {f g : α → Except ε β} {l : List α}
    (h : ∀ x ∈ l, f x = g x) : l.mapM f = l.mapM g := by
  induction l with
  | nil => rfl
  | cons a l ih =>
    rw [List.mapM_cons, List.mapM_cons, h a (by simp), ih (fun x hx => h x (by simp [hx]))]

/-- the circuit with one more public-input gate -/
def addPub (c : Circ p) (v : ℕ) : Circ p :=
  { c with pubIds := c.pubIds ++ [c.rows.length],
           rows := c.rows ++ [⟨ioGate, 0, 0, 0, 0, v⟩] }

/-- **C62.** Making a variable public appends exactly one public input, which equals the
value of that variable: an assignment satisfies the new circuit with public inputs
`pi ++ [x]` iff it satisfies the old one with `pi` and gives the variable the value `x`.
The list of public inputs of the honest prover grows by the stored value. -/
theorem C62_set_variable_public (c : Circ p) (hc : WF c) (v : ℕ) (hv : v < c.numVars) :
    ∃ c', setVariablePublic v c = .ok ((), c') ∧ WF c' ∧
      (∀ pi x w, Sat c' (pi ++ [x]) w ↔ Sat c pi w ∧ w v = x) ∧
      (∀ l, publicInput c = .ok l → publicInput c' = .ok (l ++ [c.val v])) := by
  refine ⟨addPub c v, ?_, ?_, ?_, ?_⟩
  · unfold setVariablePublic; rw [if_neg (by simp [hc.opn])]; rfl
  · refine ⟨hc.len, hc.opn, hc.two, ?_, ?_, hc.ranges, ?_⟩
    · obtain ⟨t, ht⟩ := hc.consts
      exact ⟨t ++ [⟨ioGate, 0, 0, 0, 0, v⟩], by simp [addPub, ht]⟩
    · intro r hm
      rcases List.mem_append.1 hm with hm | hm
      · exact hc.wires r hm
      · rw [List.mem_singleton.1 hm]
        have := hc.two
        have h0 : 0 < (addPub c v).numVars := by show 0 < c.numVars; omega
        exact ⟨h0, h0, h0, h0, hv⟩
    · intro g hg
      rcases List.mem_append.1 hg with hg | hg
      · obtain ⟨r', h1, h2⟩ := hc.pub g hg
        have hlt : g < c.rows.length := (List.getElem?_eq_some_iff.1 h1).1
        exact ⟨r', by simp only [addPub]; rw [List.getElem?_append_left hlt]; exact h1, h2⟩
      · rw [List.mem_singleton.1 hg]
        exact ⟨⟨ioGate, 0, 0, 0, 0, v⟩, by simp [addPub], rfl⟩
  · intro pi x w
    have hkv : (addPub c v).keyValTable w = c.keyValTable w := by
      unfold Circ.keyValTable
      simp [addPub, ioGate]
    have hrow : ∀ x : ZMod p, (⟨ioGate, 0, 0, 0, 0, v⟩ : Row p).Holds x w ↔ w v = x := by
      intro x
      simp [Row.Holds, ioGate, Sel.output]
      exact eq_comm
    constructor
    · intro h
      have hlen : pi.length = c.pubIds.length := by
        have := h.len
        simpa [addPub] using this
      refine ⟨⟨hlen, ?_, ?_, h.range, ?_⟩, ?_⟩
      · intro i g y r h1 h2 h3
        have hi : i < c.pubIds.length := (List.getElem?_eq_some_iff.1 h1).1
        have hg : g < c.rows.length := (List.getElem?_eq_some_iff.1 h3).1
        exact h.io i g y r (by simp only [addPub]; rw [List.getElem?_append_left hi]; exact h1)
          (by rw [List.getElem?_append_left (by omega)]; exact h2)
          (by simp only [addPub]; rw [List.getElem?_append_left hg]; exact h3)
      · intro r hm hio
        exact h.plain r (List.mem_append_left _ hm) hio
      · intro k hk r hm hl
        have := h.lookup k hk r (List.mem_append_left _ hm) hl
        rwa [hkv] at this
      · exact (hrow x).1 (h.io c.pubIds.length c.rows.length x ⟨ioGate, 0, 0, 0, 0, v⟩
          (by simp [addPub]) (by rw [← hlen]; simp) (by simp [addPub]))
    · rintro ⟨h, hx⟩
      refine ⟨by simp [addPub, h.len], ?_, ?_, h.range, ?_⟩
      · intro i g y r h1 h2 h3
        simp only [addPub] at h1 h3
        by_cases hi : i < c.pubIds.length
        · rw [List.getElem?_append_left hi] at h1
          rw [List.getElem?_append_left (by rw [h.len]; exact hi)] at h2
          obtain ⟨r', h4, _⟩ := hc.pub g (List.mem_of_getElem? h1)
          have hg : g < c.rows.length := (List.getElem?_eq_some_iff.1 h4).1
          rw [List.getElem?_append_left hg] at h3
          exact h.io i g y r h1 h2 h3
        · have hi2 : i = c.pubIds.length := by
            have := (List.getElem?_eq_some_iff.1 h1).1
            simp at this; omega
          subst hi2
          have e1 : c.rows.length = g := by simpa using h1
          subst e1
          have e2 : x = y := by rw [← h.len] at h2; simpa using h2
          subst e2
          have e3 : (⟨ioGate, 0, 0, 0, 0, v⟩ : Row p) = r := by simpa using h3
          subst e3
          exact (hrow x).2 hx
      · intro r hm hio
        rcases List.mem_append.1 hm with hm | hm
        · exact h.plain r hm hio
        · rw [List.mem_singleton.1 hm] at hio; simp [ioGate] at hio
      · intro k hk r hm hl
        rw [hkv]
        rcases List.mem_append.1 hm with hm | hm
        · exact h.lookup k hk r hm hl
        · rw [List.mem_singleton.1 hm] at hl; simp [ioGate] at hl
  · intro l hl
    unfold publicInput at hl ⊢
    rw [show (addPub c v).pubIds = c.pubIds ++ [c.rows.length] from rfl, mapM_except_append]
    have e : c.pubIds.mapM (ioValue (addPub c v)) = .ok l := by
      rw [← hl]
      apply mapM_except_congr
      intro g hg
      obtain ⟨r', h4, _⟩ := hc.pub g hg
      have hg : g < c.rows.length := (List.getElem?_eq_some_iff.1 h4).1
      simp only [ioValue, addPub]
      rw [List.getElem?_append_left hg]
      rfl
    rw [e]
    have hv' : ¬ c.numVars ≤ v := by omega
    simp [ioValue, addPub, hv', bind, Except.bind, pure, Except.pure, Circ.val]

example : (match setVariablePublic 3 demo with
    | .ok (_, c') => (match setVariablePublic 2 c' with
      | .ok (_, c'') => (match checkSat c'' [5, 3], checkSat c'' [3, 5], publicInput c'' with
        | .ok _, .error _, .ok l => decide (l = [5, 3])
        | _, _, _ => false)
      | _ => false)
    | _ => false) = true := by decide +kernel

/-- **C62, refuted for booleans**: `create_public_boolean_variable` adds no boolean
constraint; the circuit over `ZMod 7` it yields is satisfied with the "boolean" 5. -/
theorem C62_public_boolean_counterexample :
    ¬ ∀ (p : ℕ) [Fact p.Prime] (b : Bool) (v : ℕ) (c : Circ p)
      (_ : createPublicBooleanVariable b (Circ.new p none) = .ok (v, c))
      (pi : List (ZMod p)) (w : ℕ → ZMod p) (_ : Sat c pi w), w v = 0 ∨ w v = 1 := by
  intro h
  obtain ⟨c', h1, _, h3, _⟩ := C62_set_variable_public ((Circ.new 7 none).push 1)
    (ext_push (wf_new none) 1).wf 2 (by decide)
  have hs : Sat (Circ.new 7 none) [] (fun i => [0, 1, 5].getD i 0) := by
    have : WF { Circ.new 7 none with witness := [0, 1] } := wf_new none
    exact Sat.congr (wf_new none) (w := Circ.val (Circ.new 7 none))
      (by intro i hi
          have : i = 0 ∨ i = 1 := by simp [Circ.new] at hi; omega
          rcases this with rfl | rfl <;> rfl)
      ((checkSat_ok (wf_new none) []).1 (by decide +kernel))
  have hs2 : Sat ((Circ.new 7 none).push 1) [] (fun i => [0, 1, 5].getD i 0) :=
    ⟨hs.len, hs.io, hs.plain, hs.range, hs.lookup⟩
  have hs3 := (h3 [] 5 (fun i => [0, 1, 5].getD i 0)).2 ⟨hs2, rfl⟩
  have e1 : (createVariable (boolF true) : Build 7 ℕ) (Circ.new 7 none)
      = .ok (2, (Circ.new 7 none).push 1) := rfl
  have e2 : (createPublicVariable (boolF true) : Build 7 ℕ) (Circ.new 7 none) = .ok (2, c') := by
    unfold createPublicVariable
    rw [bind_of_ok e1, bind_of_ok h1]; rfl
  have e3 : (createPublicBooleanVariable true : Build 7 ℕ) (Circ.new 7 none) = .ok (2, c') := by
    unfold createPublicBooleanVariable
    exact e2
  have := h 7 true 2 c' e3 _ _ hs3
  revert this
  decide

/-! ## C63: key-value lookups -/

/-- **C63.** `create_table_and_lookup_variables` on an UltraPlonk circuit with fewer than
`p - 1` tables: the new circuit is satisfied exactly if the old one is and every lookup
triple `(key, v0, v1)` names an entry of *this* table: the key is the index of a table row
and the values are the values of that row. -/
theorem C63_lookup [Fact p.Prime] (c : Circ p) (hc : WF c) (ht : TablesOK c)
    (hsmall : c.tableGateIds.length + 1 < p) (k : ℕ) (hu : c.ultra = some k)
    (lookups : List (ℕ × ℕ × ℕ)) (table : List (ℕ × ℕ))
    (hl : ∀ x ∈ lookups, x.1 < c.numVars ∧ x.2.1 < c.numVars ∧ x.2.2 < c.numVars)
    (hta : ∀ x ∈ table, x.1 < c.numVars ∧ x.2 < c.numVars) :
    ∃ c', createTableAndLookupVariables lookups table c = .ok ((), c') ∧ WF c' ∧ TablesOK c' ∧
      ∀ pi w, Sat c' pi w ↔ Sat c pi w ∧
        ∀ x ∈ lookups, ∃ (i : ℕ) (t : ℕ × ℕ), table[i]? = some t ∧ w x.1 = (i : ZMod p) ∧
          w x.2.1 = w t.1 ∧ w x.2.2 = w t.2 :=
  ⟨_, createTable_eq hc hl hta, withTable_wf hc hl hta, withTable_tablesOK ht _ _,
    withTable_sat hc ht hsmall hu _ _⟩

/-- **C63.** The hypothesis `TablesOK` holds initially and is kept by every gadget. -/
theorem C63_tables_invariant (ultra : Option ℕ) :
    TablesOK (Circ.new p ultra) ∧
    ∀ {α : Type} (m : Build p α) dom pre post, Correct m dom pre post → ∀ c v c', WF c → dom c →
      m c = .ok (v, c') → TablesOK c → TablesOK c' := by
  refine ⟨tablesOK_new ultra, ?_⟩
  intro α m dom pre post h c v c' hc hd hm ht
  exact ht.frame (h.wf c hc hd v c' hm).2.2.2

example : TablesOK demoU ∧ demoU.tableGateIds.length + 1 < 61 ∧
    runOk (createTableAndLookupVariables [(1, 0, 2), (0, 2, 0)] [(2, 3), (3, 2)]) demoU = true ∧
    runOk (createTableAndLookupVariables [(1, 2, 2)] [(2, 3), (3, 2)]) demoU = false := by
  refine ⟨⟨?_⟩, by decide, by decide +kernel, by decide +kernel⟩
  intro r hr hl
  simp [demoU, Circ.new] at hr
  rcases hr with rfl | rfl <;> simp [constantGate] at hl

/-- **C63, refuted for TurboPlonk circuits**: the call is accepted but imposes nothing. -/
theorem C63_turbo_lookup_counterexample (c : Circ p) (hc : WF c) (hu : c.ultra = none)
    (lookups : List (ℕ × ℕ × ℕ)) (table : List (ℕ × ℕ))
    (hl : ∀ x ∈ lookups, x.1 < c.numVars ∧ x.2.1 < c.numVars ∧ x.2.2 < c.numVars)
    (hta : ∀ x ∈ table, x.1 < c.numVars ∧ x.2 < c.numVars) :
    ∃ c', createTableAndLookupVariables lookups table c = .ok ((), c') ∧
      ∀ pi w, Sat c' pi w ↔ Sat c pi w :=
  ⟨_, createTable_eq hc hl hta, withTable_sat_turbo hc hu _ _⟩

example : runOk (createTableAndLookupVariables [(2, 2, 2)] []) demo = true := by decide +kernel

end Verif.Props.Circuit
