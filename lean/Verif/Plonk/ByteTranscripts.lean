import Verif.Plonk.Transcript
import Verif.Util.Conversion

/-!
# The transcripts over bytes

Models of `plonk/src/transcript/standard.rs` and `plonk/src/transcript/solidity.rs`, with the default methods of the
trait (`plonk/src/transcript/mod.rs`). The scalar field is `ZMod r`.

* `serG`, `serG2` are the compressed serializations of arkworks (`to_bytes!`).
* `xy` gives the coordinates of a commitment in the base field `ZMod q`, none for the point at infinity.
* The transcript of the crate `merlin` is the list of the operations on it; a challenge is a function of that list.
* Keccak is a function `H` on bytes.
-/

namespace Verif.Plonk

open Verif.Conv

variable {q r : ℕ} {G G2 : Type}

/-- the bytes of a message -/
def toBytes (m : List ℕ) : List Byte := m.map (Fin.ofNat 256)

/-- big endian, fixed width -/
def toBE (n v : ℕ) : List Byte := (toLE n v).reverse

/-- `x.into_bigint().to_bytes_be()` -/
def toBytesBE {p : ℕ} (x : ZMod p) : List Byte := (toBytesLE x).reverse

/-- `to_bytes!` of an element of a prime field: the bytes that hold the bits of the modulus, little endian -/
def serField {p : ℕ} (x : ZMod p) : List Byte := toLE ((bits p + 7) / 8) x.val

/-! ## Merlin -/

/-- an operation on a `merlin::Transcript` -/
inductive Op where
  | append (label : String) (bytes : List Byte)
  | challenge (label : String) (size : ℕ)
deriving DecidableEq

/-- `append_field_elems`, `mod.rs:118-145` -/
def stdScalars (label : String) (xs : List (ZMod r)) : List Op := xs.map fun x => .append label (serField x)

/-- `append_commitments`, `mod.rs:91-116` -/
def stdPoints (serG : G → List Byte) (label : String) (cs : List G) : List Op := cs.map fun c => .append label (serG c)

/-- `append_vk_and_pub_input`, `mod.rs:45-86`; none where `powers_of_h[1]` panics -/
def stdVk (serG : G → List Byte) (serG2 : G2 → List Byte) (vk : VKey (ZMod r) G G2) (pi : List (ZMod r)) :
    Option (List Op) :=
  match vk.openKey.powersOfH[1]? with
  | none => none
  | some h => some
    ([.append "field size in bits" (toLE 4 (bits r)), .append "domain size" (toLE 8 vk.domSize),
      .append "input size" (toLE 8 vk.numInputs), .append "SRS G2 element" (serG2 h)] ++
      stdScalars "wire subsets separators" vk.k ++ stdPoints serG "selector commitments" vk.selectors ++
      stdPoints serG "sigma commitments" vk.sigmas ++ stdScalars "public input" pi)

/-- the operations of one call: `standard.rs:26-37` and the defaults `mod.rs:147-178`; a challenge has 64 bytes -/
def stdCall (serG : G → List Byte) (serG2 : G2 → List Byte) : Call (ZMod r) G G2 → Option (List Op)
  | .message label m => some [.append label (toBytes m)]
  | .vkAndInput vk pi => stdVk serG serG2 vk pi
  | .commitments label cs => some (stdPoints serG label cs)
  | .commitment label c => some [.append label (serG c)]
  | .evals e => some (stdScalars "wire_evals" e.wires ++ stdScalars "wire_sigma_evals" e.sigmas ++
      [.append "perm_next_eval" (serField e.permNext)])
  | .lkEvals e => some (stdScalars "plookup_evals" e.evals ++ stdScalars "plookup_next_evals" e.nextEvals)
  | .challenge label => some [.challenge label 64]

/-- several calls in order -/
def stdCalls (serG : G → List Byte) (serG2 : G2 → List Byte) : List (Call (ZMod r) G G2) → Option (List Op)
  | [] => some []
  | c :: cs =>
    match stdCall serG serG2 c, stdCalls serG serG2 cs with
    | some a, some b => some (a ++ b)
    | _, _ => none

/-- the standard transcript as a function of the calls, `standard.rs:33-42`; `M` are the bytes `merlin` returns. A panic
counts as zero. -/
def stdOracle (serG : G → List Byte) (serG2 : G2 → List Byte) (M : List Op → List Byte) (l : List (Call (ZMod r) G G2)) :
    ZMod r :=
  match stdCalls serG serG2 l with
  | none => 0
  | some ops => fromLeBytesModOrder r (M ops)

/-! ## Keccak -/

/-- `SolidityTranscript`, `solidity.rs:32-35` -/
structure STr where
  state : List Byte
  bytes : List Byte
deriving DecidableEq

/-- `new`, `solidity.rs:39-44` -/
def STr.new : STr := ⟨List.replicate 32 0, []⟩

/-- `append_message`, `solidity.rs:47-51` -/
def STr.push (t : STr) (l : List Byte) : STr := { t with bytes := t.bytes ++ l }

/-- the bytes of a commitment, `solidity.rs:54-79` -/
def solPoint (xy : G → Option (ZMod q × ZMod q)) (c : G) : List Byte :=
  match xy c with
  | none => toBytesBE (0 : ZMod q) ++ toBytesBE (0 : ZMod q)
  | some P => toBytesBE P.1 ++ toBytesBE P.2

/-- `append_commitments`, `mod.rs:91-103` -/
def STr.points (xy : G → Option (ZMod q × ZMod q)) (t : STr) (cs : List G) : STr := t.push (cs.flatMap (solPoint xy))

/-- `append_field_elems`, `mod.rs:131-145` with `solidity.rs:82-96` -/
def STr.scalars (t : STr) (xs : List (ZMod r)) : STr := t.push (xs.flatMap toBytesBE)

/-- `append_vk_and_pub_input`, `solidity.rs:98-154`; none where `powers_of_h[1]` panics -/
def STr.vkAndInput (xy : G → Option (ZMod q × ZMod q)) (serG2 : G2 → List Byte) (t : STr) (vk : VKey (ZMod r) G G2)
    (pi : List (ZMod r)) : Option STr :=
  match vk.openKey.powersOfH[1]? with
  | none => none
  | some h =>
    let t := t.push (toBE 4 (bits r))
    let t := t.push (toBE 8 vk.domSize)
    let t := t.push (toBE 8 vk.numInputs)
    let t := t.push (List.replicate 12 0)
    let t := t.push (serG2 h)
    let t := t.scalars vk.k
    let t := t.points xy vk.selectors
    let t := t.points xy vk.sigmas
    some (t.scalars pi)

/-- `get_challenge`, `solidity.rs:156-177` -/
def STr.challenge (H : List Byte → List Byte) (r : ℕ) (t : STr) : ZMod r × STr :=
  let buf := H (t.state ++ t.bytes)
  ((leNat buf.reverse : ZMod r), ⟨buf, []⟩)

/-- one call; a challenge goes to the end of the list of the challenges so far -/
def STr.call (xy : G → Option (ZMod q × ZMod q)) (serG2 : G2 → List Byte) (H : List Byte → List Byte) :
    List (ZMod r) × STr → Call (ZMod r) G G2 → Option (List (ZMod r) × STr)
  | (out, t), .message _ m => some (out, t.push (toBytes m))
  | (out, t), .vkAndInput vk pi => (t.vkAndInput xy serG2 vk pi).map (out, ·)
  | (out, t), .commitments _ cs => some (out, t.points xy cs)
  | (out, t), .commitment _ c => some (out, t.push (solPoint xy c))
  | (out, t), .evals e => some (out, ((t.scalars e.wires).scalars e.sigmas).scalars [e.permNext])
  | (out, t), .lkEvals e => some (out, (t.scalars e.evals).scalars e.nextEvals)
  | (out, t), .challenge _ => some (out ++ [(t.challenge H r).1], (t.challenge H r).2)

/-- several calls -/
def STr.calls (xy : G → Option (ZMod q × ZMod q)) (serG2 : G2 → List Byte) (H : List Byte → List Byte) :
    List (ZMod r) × STr → List (Call (ZMod r) G G2) → Option (List (ZMod r) × STr)
  | s, [] => some s
  | s, c :: cs =>
    match STr.call xy serG2 H s c with
    | none => none
    | some s => STr.calls xy serG2 H s cs

/-- the Solidity transcript as a function of the calls. A panic counts as zero. -/
def solOracle (xy : G → Option (ZMod q × ZMod q)) (serG2 : G2 → List Byte) (H : List Byte → List Byte)
    (l : List (Call (ZMod r) G G2)) : ZMod r :=
  match STr.calls xy serG2 H ([], STr.new) l with
  | none => 0
  | some s => s.1.getLastD 0

/-! ## The calls of the verifier -/

section
variable {F : Type}

/-- the calls `compute_challenges` makes, up to the last challenge, `verifier.rs:280-330` -/
def verifierCalls (extra : Option (List ℕ)) (vks : List (VKey F G G2)) (pis : List (List F)) (b : BProof F G) :
    List (Call F G G2) :=
  extraMsg extra ++ (vks.zip pis).map (fun x => .vkAndInput x.1 x.2) ++ b.wires.map (.commitments "witness_poly_comms" ·) ++
  (if vks.any (·.lookup.isSome) then [.challenge "tau"] else []) ++
  b.lookups.filterMap (·.map (fun l => .commitments "h_poly_comms" l.h)) ++ [.challenge "beta"] ++ [.challenge "gamma"] ++
  b.prodPerm.map (.commitment "perm_poly_comms" ·) ++
  b.lookups.filterMap (·.map (fun l => .commitment "plookup_poly_comms" l.prod)) ++ [.challenge "alpha"] ++
  [.commitments "quot_poly_comms" b.quot] ++ [.challenge "zeta"] ++ b.evals.map (.evals ·) ++
  b.lookups.filterMap (·.map (fun l => .lkEvals l.evals)) ++ [.challenge "v"] ++
  [.commitment "open_proof" b.opening, .commitment "shifted_open_proof" b.shifted] ++ [.challenge "u"]

/-- the last challenge is asked for after exactly these calls -/
theorem challenges_u (oracle : List (Call F G G2) → F) (extra : Option (List ℕ)) (vks : List (VKey F G G2))
    (pis : List (List F)) (b : BProof F G) :
    (challenges oracle extra vks pis b).u = oracle (verifierCalls extra vks pis b) := by
  unfold challenges verifierCalls askTau ask
  by_cases h : vks.any (·.lookup.isSome) <;> simp only [h, if_true, if_false, Bool.false_eq_true, List.append_nil]

end

end Verif.Plonk
