import Verif.Plonk.Permutation

/-!
# Model of the lookup argument on the circuit side

`compute_range_table`, `compute_merged_lookup_table`, `compute_lookup_sorted_vec_polynomials`,
`compute_lookup_prod_polynomial` of `relation/src/constraint_system.rs`.  The circuit is finalized.
The hash map from values to numbers of lookups is a function; a key that is not in the map has the
value zero (every key in the map has a positive value).  Indexing out of bounds and dividing by zero
panic.
-/

namespace Verif.Plonk

open Verif.Circuit Verif.Pcs

variable {p : ℕ} [Fact p.Prime]

/-- `compute_range_table`, `constraint_system.rs:1629-1644`; `i as u32` is `i % 2^32` -/
def rangeTable (f : FCirc p) : Except CErr (List (ZMod p)) :=
  match f.circ.ultra with
  | none => .error .wrongPlonkType
  | some k =>
    if f.dom.size < 2 ^ k then .error .parameter
    else .ok ((List.range (2 ^ k)).map (fun i => ((i % 2 ^ 32 : ℕ) : ZMod p)) ++
      List.replicate (f.dom.size - 2 ^ k) 0)

/-- `self.witness(self.wire_variable(i, j))` -/
def wireVal (c : Circ p) (i j : ℕ) : Except CErr (ZMod p) :=
  match wireAt c i j with
  | none => .error .panic
  | some v => if c.numVars ≤ v then .error .varIndexOutOfBound else .ok (c.val v)

/-- `merged_table_value`, `constraint_system.rs:1647-1668` (the selector vectors have one entry per
gate) -/
def mergedTableValue (c : Circ p) (τ : ZMod p) (range : List (ZMod p)) (i : ℕ) :
    Except CErr (ZMod p) :=
  match range[i]?, c.rows[i]? with
  | some rv, some r =>
    match wireVal c 3 i with
    | .error e => .error e
    | .ok v1 =>
      match wireVal c 4 i with
      | .error e => .error e
      | .ok v2 =>
        .ok (rv + r.sel.lookup * τ * (r.sel.tableDomSep + τ * (r.sel.tableKey + τ * (v1 + τ * v2))))
  | _, _ => .error .panic

/-- `merged_lookup_wire_value`, `constraint_system.rs:1670-1688` -/
def mergedLookupValue (c : Circ p) (τ : ZMod p) (i : ℕ) : Except CErr (ZMod p) :=
  match wireVal c 5 i with
  | .error e => .error e
  | .ok wr =>
    match wireVal c 0 i with
    | .error e => .error e
    | .ok key =>
      match wireVal c 1 i with
      | .error e => .error e
      | .ok v1 =>
        match wireVal c 2 i with
        | .error e => .error e
        | .ok v2 =>
          match c.rows[i]? with
          | none => .error .panic
          | some r =>
            .ok (wr + r.sel.lookup * τ * (r.sel.domSep + τ * (key + τ * (v1 + τ * v2))))

/-- a loop pushing results to a vector -/
def collect {α β : Type} (g : α → Except CErr β) : List α → Except CErr (List β)
  | [] => .ok []
  | a :: as =>
    match g a with
    | .error e => .error e
    | .ok b =>
      match collect g as with
      | .error e => .error e
      | .ok bs => .ok (b :: bs)

/-- `compute_merged_lookup_table`, `constraint_system.rs:1495-1514` -/
def mergedTable (f : FCirc p) (τ : ZMod p) : Except CErr (List (ZMod p)) :=
  match rangeTable f with
  | .error e => .error e
  | .ok range => collect (mergedTableValue f.circ τ range) (List.range f.dom.size)

section
variable {F : Type} [DecidableEq F]

/-- `*lookup_map.entry(elem).or_insert(0) += 1` -/
def bump (m : F → ℕ) (x : F) : F → ℕ := fun y => if y = x then m y + 1 else m y

/-- counting the looked-up values, `constraint_system.rs:1600-1604` -/
def countMap (l : List F) : F → ℕ := l.foldl bump (fun _ => 0)

/-- the merge, `constraint_system.rs:1608-1616` -/
def mergeSorted : List F → (F → ℕ) → List F
  | [], _ => []
  | x :: xs, m =>
    if m x ≠ 0 then
      List.replicate (1 + m x) x ++ mergeSorted xs (fun y => if y = x then 0 else m y)
    else x :: mergeSorted xs m

end

/-- `compute_lookup_sorted_vec_polynomials`, `constraint_system.rs:1577-1623`: the sorted vector and
the coefficients of the two polynomials -/
def sortedVecPolys (f : FCirc p) (τ : ZMod p) (table : List (ZMod p)) :
    Except CErr (List (ZMod p) × List (ZMod p) × List (ZMod p)) :=
  if f.circ.ultra = none then .error .wrongPlonkType
  else if f.dom.size ≠ f.circ.rangeVars.length then .error .parameter
  else if f.dom.size ≠ table.length then .error .parameter
  else
    match collect (mergedLookupValue f.circ τ) (List.range (f.dom.size - 1)) with
    | .error e => .error e
    | .ok l =>
      let s := mergeSorted table (countMap l)
      if s.length ≠ 2 * f.dom.size - 1 then .error .parameter
      else .ok (s, f.dom.ifft (s.take f.dom.size), f.dom.ifft (s.drop (f.dom.size - 1)))

/-- numerator of a row, `constraint_system.rs:1560-1562` -/
def lookupNum (β γ x t t' : ZMod p) : ZMod p := (1 + β) * (γ + x) * (γ * (1 + β) + t + β * t')

/-- denominator of a row, `constraint_system.rs:1564-1565` -/
def lookupDen (β γ a a' b b' : ZMod p) : ZMod p :=
  (γ * (1 + β) + a + β * a') * (γ * (1 + β) + b + β * b')

/-- the loop, `constraint_system.rs:1547-1569`: the values behind `prev` -/
def lookupLoop (f : FCirc p) (τ β γ : ZMod p) (table sorted : List (ZMod p)) :
    List ℕ → ZMod p → Except CErr (List (ZMod p))
  | [], _ => .ok []
  | j :: js, prev =>
    match mergedLookupValue f.circ τ j with
    | .error e => .error e
    | .ok x =>
      match table[j]?, table[j + 1]?, sorted[j]?, sorted[j + 1]?, sorted[f.dom.size - 1 + j]?,
        sorted[f.dom.size + j]? with
      | some t, some t', some a, some a', some b, some b' =>
        let num := lookupNum β γ x t t'
        let den := lookupDen β γ a a' b b'
        if den = 0 then .error .panic
        else
          match lookupLoop f τ β γ table sorted js (prev * num / den) with
          | .error e => .error e
          | .ok l => .ok (prev * num / den :: l)
      | _, _, _, _, _, _ => .error .panic

/-- `compute_lookup_prod_polynomial`, `constraint_system.rs:1516-1575`.  (The coefficients are kept
without stripping trailing zeros.) -/
def lookupProdPoly (f : FCirc p) (τ β γ : ZMod p) (table sorted : List (ZMod p)) :
    Except CErr (List (ZMod p)) :=
  if f.circ.ultra = none then .error .wrongPlonkType
  else if f.dom.size ≠ f.circ.rangeVars.length then .error .parameter
  else if f.dom.size ≠ table.length then .error .parameter
  else if 2 * f.dom.size - 1 ≠ sorted.length then .error .parameter
  else
    match lookupLoop f τ β γ table sorted (List.range (f.dom.size - 2)) 1 with
    | .error e => .error e
    | .ok l => .ok (f.dom.ifft (1 :: l ++ [1]))

end Verif.Plonk
