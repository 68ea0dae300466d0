import Verif.Plonk.Transcript
import Verif.Util.Conversion
import Verif.Hash.Rescue

/-!
# The Rescue transcript

Model of `plonk/src/transcript/rescue.rs`: a list of elements of the base field `ZMod q` and a state. The scalar field
is `ZMod r`; `te` is the conversion of a commitment into twisted Edwards form, which may panic, and `f` the Rescue
permutation. Labels are ignored by the code.
-/

namespace Verif.Plonk

open Verif.Conv
open Verif.Rescue (Vec)

/-- the ways to fail: a panic (`field_switching`, conversion of points and bytes, sizes of the fields) or an error of
the hash function -/
inductive TErr where
  | panic
  | hash
deriving DecidableEq

/-- `RescueTranscript`, `rescue.rs:37-43` -/
structure RTr (q : ℕ) where
  elems : List (ZMod q)
  state : Vec (ZMod q)

variable {q r : ℕ} {G G2 : Type}

/-- `new`, `rescue.rs:50-55` -/
def RTr.new (q : ℕ) : RTr q := ⟨[], Rescue.zeroVec⟩

/-- `transcript.push` of several elements -/
def RTr.push (t : RTr q) (l : List (ZMod q)) : RTr q := { t with elems := t.elems ++ l }

/-- `field_switching` of every element, in order, and `push`, `rescue.rs:88-90`, `139-147`, `157-162` -/
def RTr.scalars (t : RTr q) : List (ZMod r) → Except TErr (RTr q)
  | [] => .ok t
  | x :: xs =>
    match fieldSwitching q x with
    | .error _ => .error .panic
    | .ok y => (t.push [y]).scalars xs

/-- `append_commitment`, `rescue.rs:105-124` -/
def RTr.commitment (te : G → Option (ZMod q × ZMod q)) (t : RTr q) (c : G) : Except TErr (RTr q) :=
  match te c with
  | none => .error .panic
  | some P => .ok (t.push [P.1, P.2])

/-- `append_commitments`, `mod.rs:91-103` -/
def RTr.commitments (te : G → Option (ZMod q × ZMod q)) (t : RTr q) : List G → Except TErr (RTr q)
  | [] => .ok t
  | c :: cs =>
    match t.commitment te c with
    | .error e => .error e
    | .ok t => t.commitments te cs

/-- `append_vk_and_pub_input`, `rescue.rs:57-93` -/
def RTr.vkAndInput (te : G → Option (ZMod q × ZMod q)) (t : RTr q) (vk : VKey (ZMod r) G G2) (pi : List (ZMod r)) :
    Except TErr (RTr q) :=
  match t.commitments te vk.selectors with
  | .error e => .error e
  | .ok t =>
    match t.commitments te vk.sigmas with
    | .error e => .error e
    | .ok t => t.scalars pi

/-- the field elements of a message -/
def messageElems (q : ℕ) (bytes : List ℕ) : Except TErr (List (ZMod q)) :=
  match bytesToFieldElements q 1 (bytes.map (Fin.ofNat 256)) with
  | .error _ => .error .panic
  | .ok l => .ok l.flatten

/-- `append_message`, `rescue.rs:97-103` -/
def RTr.message (t : RTr q) (bytes : List ℕ) : Except TErr (RTr q) :=
  match messageElems q bytes with
  | .error e => .error e
  | .ok l => .ok (t.push l)

/-- `append_proof_evaluations`, `rescue.rs:137-150` -/
def RTr.evals (t : RTr q) (e : Evals (ZMod r)) : Except TErr (RTr q) :=
  t.scalars (e.wires ++ e.sigmas ++ [e.permNext])

/-- `append_plookup_evaluations`, `rescue.rs:152-163` -/
def RTr.lkEvals (t : RTr q) (e : LkEvals (ZMod r)) : Except TErr (RTr q) := t.scalars (e.evals ++ e.nextEvals)

/-- `get_challenge`, `rescue.rs:167-182` -/
def RTr.challenge (f : Vec (ZMod q) → Vec (ZMod q)) (r : ℕ) (t : RTr q) : Except TErr (ZMod r × RTr q) :=
  match Rescue.variableEvaluate f 4 (t.state.elems ++ t.elems) with
  | .ok [a, b, c, d] =>
    match fqToFrWithMask r a with
    | .error _ => .error .panic
    | .ok x => .ok (x, ⟨[], ⟨a, b, c, d⟩⟩)
  | _ => .error .hash

/-- one call; a challenge goes to the end of the list of the challenges so far -/
def RTr.call (te : G → Option (ZMod q × ZMod q)) (f : Vec (ZMod q) → Vec (ZMod q)) :
    List (ZMod r) × RTr q → Call (ZMod r) G G2 → Except TErr (List (ZMod r) × RTr q)
  | (out, t), .message _ m => (t.message m).map (out, ·)
  | (out, t), .vkAndInput vk pi => (t.vkAndInput te vk pi).map (out, ·)
  | (out, t), .commitments _ cs => (t.commitments te cs).map (out, ·)
  | (out, t), .commitment _ c => (t.commitment te c).map (out, ·)
  | (out, t), .evals e => (t.evals e).map (out, ·)
  | (out, t), .lkEvals e => (t.lkEvals e).map (out, ·)
  | (out, t), .challenge _ => (t.challenge f r).map fun x => (out ++ [x.1], x.2)

/-- several calls -/
def RTr.calls (te : G → Option (ZMod q × ZMod q)) (f : Vec (ZMod q) → Vec (ZMod q)) :
    List (ZMod r) × RTr q → List (Call (ZMod r) G G2) → Except TErr (List (ZMod r) × RTr q)
  | s, [] => .ok s
  | s, c :: cs =>
    match RTr.call te f s c with
    | .error e => .error e
    | .ok s => RTr.calls te f s cs

/-- the transcript as a function of the calls: the last challenge of the calls so far. A failure counts as zero; the
theorems that use the function show that there is none. -/
def rescueOracle (te : G → Option (ZMod q × ZMod q)) (f : Vec (ZMod q) → Vec (ZMod q)) (l : List (Call (ZMod r) G G2)) :
    ZMod r :=
  match RTr.calls te f ([], RTr.new q) l with
  | .error _ => 0
  | .ok s => s.1.getLastD 0

end Verif.Plonk
