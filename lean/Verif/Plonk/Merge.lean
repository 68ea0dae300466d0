import Verif.Plonk.Permutation

/-!
# Model of `finalize_for_mergeable_circuit` and `merge` of `relation/src/constraint_system.rs`

The vectors of wire variables behind the fifth stay empty for TurboPlonk circuits, so wires are
again kept in the rows.  `usize` subtractions do not underflow for finalized circuits (a gate number is
below `2n`).
-/

namespace Verif.Plonk

open Verif.Circuit Verif.Pcs

variable {p : ℕ} [Fact p.Prime]

/-- `MergeableCircuitType`, `constraint_system.rs:64-72` -/
inductive MergeType
  | a
  | b
  deriving DecidableEq

/-- the wire permutation of a type A circuit, `constraint_system.rs:1215-1221`; `n` is the old domain
size -/
def typeAPerm (W n : ℕ) (perm : List (ℕ × ℕ)) : List (ℕ × ℕ) :=
  (List.range W).flatMap (fun i => (List.range (2 * n)).map (fun j =>
    if j < n then perm.getD (i * n + j) (0, 0) else (W, 0)))

/-- the wire permutation of a type B circuit, `constraint_system.rs:1231-1241`; entry
`2n - 1 - j` is written from entry `j` of the old permutation -/
def typeBPerm (W n : ℕ) (perm : List (ℕ × ℕ)) : List (ℕ × ℕ) :=
  (List.range W).flatMap (fun i => (List.range (2 * n)).map (fun j =>
    if n ≤ j then
      let s := perm.getD (i * n + (2 * n - 1 - j)) (0, 0)
      (s.1, 2 * n - 1 - s.2)
    else (W, 0)))

/-- the gates and wires of a mergeable circuit, `constraint_system.rs:1205-1230`; `n` is the old domain
size, `n2` the new one -/
def mergeableCirc (ty : MergeType) (n n2 : ℕ) (c : Circ p) : Circ p :=
  let rows := c.rows ++ List.replicate n paddingRow
  match ty with
  | .a => { c with rows := rows, domSize := n2 }
  | .b => { c with rows := rows.reverse, domSize := n2, pubIds := c.pubIds.map (fun g => 2 * n - 1 - g) }

/-- `finalize_for_mergeable_circuit`, `constraint_system.rs:1192-1247`, for a circuit that is not
finalized yet -/
def finalizeMergeable (ty : MergeType) (S : ℕ) (root : ZMod p) (rnd : List (ZMod p)) (c : Circ p) :
    Except CErr (FCirc p) :=
  match c.ultra with
  | some _ => .error .wrongPlonkType
  | none =>
    match finalize S root rnd c with
    | .error e => .error e
    | .ok f =>
      match newDomain S root (2 * f.dom.size) with
      | none => .error .domainCreation
      | some dom =>
        match cosetReps rnd (numWireTypes c) dom.size with
        | .error e => .error e
        | .ok ks =>
          .ok ⟨mergeableCirc ty f.dom.size dom.size f.circ, dom,
            match ty with
            | .a => typeAPerm (numWireTypes c) f.dom.size f.perm
            | .b => typeBPerm (numWireTypes c) f.dom.size f.perm,
            extIdPermutation ks dom⟩

/-- the wires of a row of the second circuit, `constraint_system.rs:1309`: the variables are
renumbered behind the variables of the first circuit -/
def shiftRow (m : ℕ) (r : Row p) : Row p :=
  { r with w0 := r.w0 + m, w1 := r.w1 + m, w2 := r.w2 + m, w3 := r.w3 + m, w4 := r.w4 + m }

/-- the wire permutation of the merged circuit, `constraint_system.rs:1314-1321`; `n` is half of the
domain size -/
def mergePerm (W n : ℕ) (pa pb : List (ℕ × ℕ)) : List (ℕ × ℕ) :=
  (List.range W).flatMap (fun i => (List.range (2 * n)).map (fun j =>
    if j < n then pa.getD (i * (2 * n) + j) (0, 0) else pb.getD (i * (2 * n) + j) (0, 0)))

/-- the merged circuit without its permutations, `constraint_system.rs:1283-1312, 1323-1336` -/
def mergeCirc (n : ℕ) (a b : Circ p) : Circ p where
  numVars := a.numVars + b.numVars
  witness := a.witness ++ b.witness
  rows := a.rows.take n ++ (b.rows.drop n).map (shiftRow a.numVars)
  pubIds := a.pubIds ++ b.pubIds
  rangeVars := []
  domSize := a.domSize
  ultra := none
  numTableElems := 0
  tableGateIds := []

/-- `merge`, `constraint_system.rs:1252-1337` -/
def merge (a b : FCirc p) : Except CErr (FCirc p) :=
  if a.circ.domSize = 1 ∨ b.circ.domSize = 1 then .error .unfinalized
  else if a.dom.size ≠ b.dom.size then .error .parameter
  else if a.circ.ultra ≠ none ∨ b.circ.ultra ≠ none then .error .parameter
  else if a.circ.pubIds.length ≠ b.circ.pubIds.length then .error .parameter
  else
    match a.circ.pubIds[0]?, b.circ.pubIds[0]? with
    | some ga, some gb =>
      if ga ≠ 0 then .error .parameter
      else if gb ≠ b.dom.size - 1 then .error .parameter
      else
        .ok ⟨mergeCirc (a.dom.size / 2) a.circ b.circ, a.dom,
          mergePerm (numWireTypes a.circ) (a.dom.size / 2) a.perm b.perm, a.ids⟩
    | _, _ => .error .panic

end Verif.Plonk
