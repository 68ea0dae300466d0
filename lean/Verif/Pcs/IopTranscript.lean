import Verif.Plonk.ByteTranscripts
import Verif.Pcs.Multilinear

/-!
# The transcript of the multilinear batch argument

Model of `pcs/src/transcript.rs` and of its use in `pcs/src/multilinear_kzg/batching.rs`. The scalar field is `ZMod r`.

* The transcript of the crate `merlin` is its label and the list of the operations on it; the bytes of a challenge are a
  function `M` of both.
* `serG` is the compressed serialization of a commitment (`to_bytes!`).
-/

namespace Verif.Pcs

open Verif.Conv Verif.Plonk

variable {r : ℕ} {G : Type}

/-- `TranscriptError`, `transcript.rs:13-20`; serialization does not fail in the model -/
inductive TrErr where
  | invalidTranscript
deriving DecidableEq

/-- `IOPTranscript`, `transcript.rs:46-52` -/
structure Iop where
  label : String
  ops : List Op
  isEmpty : Bool
deriving DecidableEq

/-- `new`, `transcript.rs:56-63` -/
def Iop.new (label : String) : Iop := ⟨label, [], true⟩

/-- `append_message`, `transcript.rs:65-74`; `append_serializable_element` (`76-83`) is this with the serialization -/
def Iop.append (t : Iop) (label : String) (msg : List Byte) : Iop :=
  { t with ops := t.ops ++ [.append label msg], isEmpty := false }

/-- `get_and_append_challenge`, `transcript.rs:85-103` -/
def Iop.challenge (r : ℕ) (M : String → List Op → List Byte) (t : Iop) (label : String) : Except TrErr (ZMod r × Iop) :=
  if t.isEmpty then .error .invalidTranscript
  else
    let ops := t.ops ++ [.challenge label 64]
    let c := fromLeBytesModOrder r (M t.label ops)
    .ok (c, Iop.append { t with ops := ops } label (serField c))

/-- `get_and_append_byte_challenge`, `transcript.rs:105-125`; `n` is the length of the slice to be filled -/
def Iop.byteChallenge (M : String → List Op → List Byte) (t : Iop) (label : String) (n : ℕ) :
    Except TrErr (List Byte × Iop) :=
  if t.isEmpty then .error .invalidTranscript
  else
    let ops := t.ops ++ [.challenge label n]
    let b := M t.label ops
    .ok (b, Iop.append { t with ops := ops } label b)

/-- `to_bytes!` of a vector of field elements: the length in eight bytes, then the elements -/
def serVec (x : List (ZMod r)) : List Byte := toLE 8 x.length ++ x.flatMap serField

/-- the challenge of a batch opening, `batching.rs:108-118` (prover) and `batching.rs:234-244` (verifier) -/
def mlChallenge (serG : G → List Byte) (M : String → List Op → List Byte) (comm : G) (points : List (List (ZMod r)))
    (q : G) : Except TrErr (ZMod r) :=
  let t := (Iop.new "ml kzg").append "w" (serG comm)
  let t := points.foldl (fun t x => t.append "w" (serVec x)) t
  let t := t.append "q(x)" (serG q)
  match t.challenge r M "r" with
  | .error e => .error e
  | .ok (c, _) => .ok c

end Verif.Pcs
