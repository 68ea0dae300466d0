import Verif.Circuit.Gadgets
import Verif.Pcs.Fk23

/-!
# Model of the second half of `relation/src/constraint_system.rs`: finalizing a circuit

`wire_variables` are the wires of the rows and, for UltraPlonk, the range variables.  The evaluation
domain is a `Pcs.Domain` (`root` is the `2^S`-th root of unity of the field); `Circ.domSize` is its
size.  `1 << range_bit_len` is `2^k` (no overflow for `k < 64`).
-/

namespace Verif.Plonk

open Verif.Circuit Verif.Pcs

variable {p : ℕ} [Fact p.Prime]

/-- `swap` of the gates and of the first five wire vectors; out of bounds panics -/
def swapRow (l : List (Row p)) (i j : ℕ) : Except CErr (List (Row p)) :=
  match l[i]?, l[j]? with
  | some a, some b => .ok ((l.set i b).set j a)
  | _, _ => .error .panic

/-- the first loop of `rearrange_gates`, `constraint_system.rs:833-844`: public-input gates to the
front; `k` is the number of the public input.  Returns the rows and the new gate ids. -/
def moveIo : ℕ → List ℕ → List (Row p) → Except CErr (List (Row p) × List ℕ)
  | _, [], rows => .ok (rows, [])
  | k, g :: gs, rows =>
    if k < g then
      match swapRow rows k g with
      | .error e => .error e
      | .ok rows' =>
        match moveIo (k + 1) gs rows' with
        | .error e => .error e
        | .ok (r, ids) => .ok (r, k :: ids)
    else
      match moveIo (k + 1) gs rows with
      | .error e => .error e
      | .ok (r, ids) => .ok (r, g :: ids)

/-- the gate numbers visited by the second loop, `constraint_system.rs:851-852` -/
def tableIds (ts : List (ℕ × ℕ)) : List ℕ :=
  ts.reverse.flatMap (fun t => (List.range' t.1 t.2).reverse)

/-- the second loop of `rearrange_gates`, `constraint_system.rs:850-863`: lookup gates to the
rear; `cur` is `cur_gate_id` -/
def moveLookups : List ℕ → ℕ → List (Row p) → Except CErr (List (Row p))
  | [], _, rows => .ok rows
  | g :: gs, cur, rows =>
    if g < cur then
      match swapRow rows g cur with
      | .error e => .error e
      | .ok rows' => moveLookups gs (cur - 1) rows'
    else moveLookups gs cur rows

/-- the row of a `PaddingGate` with its wires filled up by `resize(n, zero)` -/
def paddingRow : Row p := ⟨paddingGate, 0, 0, 0, 0, 0⟩

/-- `resize(n, zero)` -/
def resize (n : ℕ) (l : List ℕ) : List ℕ := l.take n ++ List.replicate (n - l.length) 0

/-- `num_slots_needed`, `constraint_system.rs:1171-1179` -/
def numSlots (c : Circ p) : ℕ :=
  match c.ultra with
  | none => c.rows.length
  | some k => max c.rows.length (max (2 ^ k) c.rangeVars.length + c.numTableElems + 1)

/-- `pad`, `constraint_system.rs:874-884`, for `num_gates ≤ n` (the domain is chosen that way) -/
def padCirc (c : Circ p) (n : ℕ) : Circ p :=
  { c with
    rows := c.rows ++ List.replicate (n - c.rows.length) paddingRow
    rangeVars := match c.ultra with
      | none => c.rangeVars
      | some _ => resize n c.rangeVars
    domSize := n }

/-- `rearrange_gates`, `constraint_system.rs:831-866` -/
def rearrangeGates (c : Circ p) : Except CErr (Circ p) :=
  match moveIo 0 c.pubIds c.rows with
  | .error e => .error e
  | .ok (rows, ids) =>
    match c.ultra with
    | none => .ok { c with rows := rows, pubIds := ids }
    | some _ =>
      match moveLookups (tableIds c.tableGateIds) (c.domSize - 2) rows with
      | .error e => .error e
      | .ok rows' => .ok { c with rows := rows', pubIds := ids }

/-- `num_wire_types`, `constraint_system.rs:421-426` -/
def numWireTypes (c : Circ p) : ℕ :=
  match c.ultra with
  | none => 5
  | some _ => 6

/-- the first `num_wire_types` vectors of `wire_variables` -/
def wireVecs (c : Circ p) : List (List ℕ) :=
  let ws := [c.rows.map Row.w0, c.rows.map Row.w1, c.rows.map Row.w2, c.rows.map Row.w3,
    c.rows.map Row.w4]
  match c.ultra with
  | none => ws
  | some _ => ws ++ [c.rangeVars]

/-- `variable_wires_map`, `constraint_system.rs:948-964`; a variable out of bounds panics -/
def variableWires (m : ℕ) (vecs : List (List ℕ)) : Except CErr (List (List (ℕ × ℕ))) :=
  let slots := (vecs.zipIdx.flatMap (fun v => v.1.zipIdx.map (fun x => (x.1, (v.2, x.2)))))
  if slots.any (fun s => m ≤ s.1) then .error .panic
  else .ok (slots.foldl (fun map s => map.modify s.1 (fun l => l ++ [s.2])) (List.replicate m []))

/-- writing one cycle, `constraint_system.rs:968-978` -/
def writeCycle (n : ℕ) (perm : List (ℕ × ℕ)) (wires : List (ℕ × ℕ)) : List (ℕ × ℕ) :=
  match wires with
  | [] => perm
  | w :: ws =>
    ((w :: ws).zip (ws ++ [w])).foldl (fun perm x => perm.set (x.1.1 * n + x.1.2) x.2) perm

/-- `compute_wire_permutation`, `constraint_system.rs:943-981` -/
def wirePermutation (c : Circ p) : Except CErr (List (ℕ × ℕ)) :=
  match variableWires c.numVars (wireVecs c) with
  | .error e => .error e
  | .ok map => .ok (map.foldl (writeCycle c.domSize) (List.replicate (numWireTypes c * c.domSize) (0, 0)))

/-- the loop of `compute_coset_representatives`, `constants.rs:67-83`, drawing from the list of
random field elements `rnd`; running out of them stands for not terminating -/
def cosetLoop (N : ℕ) : List (ZMod p) → ℕ → List (ZMod p) → Except CErr (List (ZMod p))
  | _, 0, ks => .ok ks
  | [], _ + 1, _ => .error .panic
  | x :: rnd, m + 1, ks =>
    if x ^ N = 0 then .error .panic
    else if ks.any (fun k => (x ^ N)⁻¹ * k ^ N = 1) then cosetLoop N rnd (m + 1) ks
    else cosetLoop N rnd m (ks ++ [x])

/-- `compute_coset_representatives(num_wire_types, Some(N))`, `constants.rs:31-84` -/
def cosetReps (rnd : List (ZMod p)) (num N : ℕ) : Except CErr (List (ZMod p)) :=
  match num with
  | 0 => .ok []
  | m + 1 => cosetLoop N rnd m [1]

/-- `compute_extended_id_permutation`, `constraint_system.rs:1116-1132`:
`id[i*n+j] = k[i] * g^j` -/
def extIdPermutation (ks : List (ZMod p)) (dom : Domain (ZMod p)) : List (ZMod p) :=
  ks.flatMap (fun k => (List.range dom.size).map (fun j => k * dom.gen ^ j))

/-- A finalized circuit with its domain and permutations -/
structure FCirc (p : ℕ) where
  circ : Circ p
  dom : Domain (ZMod p)
  perm : List (ℕ × ℕ)
  ids : List (ZMod p)

/-- `finalize_for_arithmetization`, `constraint_system.rs:1167-1187`, for a circuit that is not
finalized yet -/
def finalize (S : ℕ) (root : ZMod p) (rnd : List (ZMod p)) (c : Circ p) : Except CErr (FCirc p) :=
  match newDomain S root (numSlots c) with
  | none => .error .domainCreation
  | some dom =>
    if dom.size = 1 then .error .unfinalized
    else
      match rearrangeGates (padCirc c dom.size) with
      | .error e => .error e
      | .ok c' =>
        match wirePermutation c' with
        | .error e => .error e
        | .ok perm =>
          match cosetReps rnd (numWireTypes c') dom.size with
          | .error e => .error e
          | .ok ks => .ok ⟨c', dom, perm, extIdPermutation ks dom⟩

/-! ### Circuits that can be built -/

/-- The circuits that can be built: any sequence of new variables, gates that are neither public-input
nor lookup gates, public inputs, range checks and lookup tables.  (All gadgets are made of these.
`set_variable_public` and `insert_gate` do not check that the variables exist; it is required
here.) -/
inductive Built : Circ p → Prop
  | new (ultra : Option ℕ) : Built (Circ.new p ultra)
  | var (c c' : Circ p) (x : ZMod p) (v : ℕ) : Built c → createVariable x c = .ok (v, c') → Built c'
  | gate (c c' : Circ p) (w0 w1 w2 w3 w4 : ℕ) (g : Sel p) : Built c → g.io = false → g.lookup = 0 →
      w0 < c.numVars → w1 < c.numVars → w2 < c.numVars → w3 < c.numVars → w4 < c.numVars →
      insertGate w0 w1 w2 w3 w4 g c = .ok ((), c') → Built c'
  | pub (c c' : Circ p) (v : ℕ) : Built c → v < c.numVars → setVariablePublic v c = .ok ((), c') →
      Built c'
  | range (c c' : Circ p) (v : ℕ) : Built c → addRangeCheckVariable v c = .ok ((), c') → Built c'
  | table (c c' : Circ p) (lookups : List (ℕ × ℕ × ℕ)) (table : List (ℕ × ℕ)) : Built c →
      createTableAndLookupVariables lookups table c = .ok ((), c') → Built c'

end Verif.Plonk
