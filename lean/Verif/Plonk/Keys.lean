import Verif.Plonk.Verifier
import Verif.Plonk.Lookup

/-!
# Model of the polynomials of a circuit and of `preprocess`

`compute_selector_polynomials`, `compute_extended_permutation_polynomials`, `compute_wire_polynomials` and the
table polynomials of `relation/src/constraint_system.rs`; `preprocess` of
`plonk/src/proof_system/snark.rs`.  Polynomials are lists of coefficients; the coefficients computed by an
inverse transform are kept without stripping trailing zeros.  The coset representatives of the key are drawn
from the same list as those of `finalize`, because the code uses a generator with a fixed seed.
-/

namespace Verif.Plonk

open Verif.Circuit Verif.Pcs

/-- `PlonkError`, as far as the prover and preprocessing return it -/
inductive PErr where
  | circuit (e : CErr)
  | pcs (e : Err)
  | snark (e : VErr)
  | indexTooLarge
  | wrongQuotientDegree
  deriving DecidableEq

section
variable {p : ℕ} [Fact p.Prime]

/-- `all_selectors`, `constraint_system.rs:1093-1108` -/
def allSelectors (c : Circ p) : List (List (ZMod p)) :=
  [c.rows.map (·.sel.lc0), c.rows.map (·.sel.lc1), c.rows.map (·.sel.lc2), c.rows.map (·.sel.lc3),
    c.rows.map (·.sel.mul0), c.rows.map (·.sel.mul1),
    c.rows.map (·.sel.hash0), c.rows.map (·.sel.hash1), c.rows.map (·.sel.hash2), c.rows.map (·.sel.hash3),
    c.rows.map (·.sel.o), c.rows.map (·.sel.c), c.rows.map (·.sel.ecc)] ++
    match c.ultra with
    | none => []
    | some _ => [c.rows.map (·.sel.lookup)]

/-- `compute_selector_polynomials`, `constraint_system.rs:1359-1372` -/
def selectorPolys (f : FCirc p) : Except CErr (List (List (ZMod p))) :=
  if f.dom.size < f.circ.rows.length then .error .parameter
  else .ok ((allSelectors f.circ).map f.dom.ifft)

/-- `compute_extended_permutation_polynomials`, `constraint_system.rs:1374-1392` -/
def sigmaPolys (f : FCirc p) : Except CErr (List (List (ZMod p))) :=
  match extPermutation f with
  | .error e => .error e
  | .ok l => .ok ((List.range (numWireTypes f.circ)).map
      (fun i => f.dom.ifft ((l.drop (i * f.dom.size)).take f.dom.size)))

/-- `compute_wire_polynomials`, `constraint_system.rs:1422-1444` -/
def wirePolys (f : FCirc p) : Except CErr (List (List (ZMod p))) :=
  if f.dom.size < f.circ.rows.length then .error .parameter
  else
    match (wireVecs f.circ).mapM (fun v => v.mapM (fun x => f.circ.witness[x]?)) with
    | none => .error .panic
    | some l => .ok (l.map f.dom.ifft)

/-- `compute_range_table_polynomial`, `constraint_system.rs:1461-1467` -/
def rangeTablePoly (f : FCirc p) : Except CErr (List (ZMod p)) :=
  match rangeTable f with
  | .error e => .error e
  | .ok l => .ok (f.dom.ifft l)

/-- `compute_key_table_polynomial`, `constraint_system.rs:1469-1476` -/
def keyTablePoly (f : FCirc p) : Except CErr (List (ZMod p)) :=
  if f.circ.ultra = none then .error .wrongPlonkType
  else .ok (f.dom.ifft (f.circ.rows.map (·.sel.tableKey)))

/-- `compute_table_dom_sep_polynomial`, `constraint_system.rs:1478-1485` -/
def tableDomSepPoly (f : FCirc p) : Except CErr (List (ZMod p)) :=
  if f.circ.ultra = none then .error .wrongPlonkType
  else .ok (f.dom.ifft (f.circ.rows.map (·.sel.tableDomSep)))

/-- `compute_q_dom_sep_polynomial`, `constraint_system.rs:1487-1494` -/
def qDomSepPoly (f : FCirc p) : Except CErr (List (ZMod p)) :=
  if f.circ.ultra = none then .error .wrongPlonkType
  else .ok (f.dom.ifft (f.circ.rows.map (·.sel.domSep)))

end

/-- `PlookupProvingKey`, `structs.rs:561-573` -/
structure LkPk (F : Type) where
  range : List F
  key : List F
  tableDomSep : List F
  qDomSep : List F

/-- `ProvingKey`, `structs.rs:541-556` -/
structure PKey (F G G2 : Type) where
  sigmas : List (List F)
  selectors : List (List F)
  commitKey : ProverParam G
  vk : VKey F G G2
  lookup : Option (LkPk F)

/-- an error of the circuit -/
def liftC {α : Type} : Except CErr α → Except PErr α
  | .error e => .error (.circuit e)
  | .ok a => .ok a

/-- an error of the commitment scheme -/
def liftP {α : Type} : Except Err α → Except PErr α
  | .error e => .error (.pcs e)
  | .ok a => .ok a

/-- an error of the proof system -/
def liftV {α : Type} : Except VErr α → Except PErr α
  | .error e => .error (.snark e)
  | .ok a => .ok a

section
variable {p : ℕ} [Fact p.Prime] {G G2 : Type} [AddCommGroup G] [Module (ZMod p) G] [DecidableEq G]
  [AddCommGroup G2] [Module (ZMod p) G2] [DecidableEq G2]

/-- the lookup part of the proving key, `snark.rs:508-521` -/
def lookupPk (f : FCirc p) : Except PErr (Option (LkPk (ZMod p))) :=
  match f.circ.ultra with
  | none => .ok none
  | some _ => do
    let range ← liftC (rangeTablePoly f)
    let key ← liftC (keyTablePoly f)
    let tds ← liftC (tableDomSepPoly f)
    let qds ← liftC (qDomSepPoly f)
    .ok (some ⟨range, key, tds, qds⟩)

/-- the lookup part of the verifying key, `snark.rs:537-557` -/
def lookupVk (ck : ProverParam G) : Option (LkPk (ZMod p)) → Except PErr (Option (LkVk G))
  | none => .ok none
  | some l => do
    let range ← liftP (commit ck l.range)
    let key ← liftP (commit ck l.key)
    let tds ← liftP (commit ck l.tableDomSep)
    let qds ← liftP (commit ck l.qDomSep)
    .ok (some ⟨range, key, tds, qds⟩)

/-- `preprocess`, `snark.rs:492-580`.  (`max_degree` is the number of powers.) -/
def preprocess (rnd : List (ZMod p)) (srs : Srs G G2) (f : FCirc p) :
    Except PErr (PKey (ZMod p) G G2) :=
  if srs.powersOfG.length < f.dom.size + 2 then .error .indexTooLarge
  else do
    let selectors ← liftC (selectorPolys f)
    let sigmas ← liftC (sigmaPolys f)
    let lpk ← lookupPk f
    let (ck, ok) ← liftP (trim srs (f.dom.size + 2))
    let selComms ← liftP (batchCommit ck selectors)
    let sigComms ← liftP (batchCommit ck sigmas)
    let lvk ← lookupVk ck lpk
    let k ← liftC (cosetReps rnd (numWireTypes f.circ) f.dom.size)
    .ok { sigmas := sigmas, selectors := selectors, commitKey := ck, lookup := lpk
          vk := { domSize := f.dom.size, numInputs := f.circ.pubIds.length, sigmas := sigComms,
                  selectors := selComms, k := k, openKey := ok, merged := false, lookup := lvk } }

end

end Verif.Plonk
