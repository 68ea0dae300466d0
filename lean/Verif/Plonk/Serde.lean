import Verif.Merkle.Serde
import Verif.Plonk.Keys
import Verif.Plonk.ProofFields

/-!
# Model of the serialization of proofs and keys

The `CanonicalSerialize` and `CanonicalDeserialize` derives of `plonk/src/proof_system/structs.rs`, of
`Commitment` (`pcs/src/structs.rs:12-18`) and of the parameters of `pcs/src/univariate_kzg/srs.rs`: the fields one after
the other.  `Vec`, `Option`, `bool`, `usize` and field elements are from the documentation of arkworks; the codecs of
curve points are parameters.
-/

namespace Verif.Plonk.Serde

open Verif.Conv Verif.Merkle.Serde Verif.Pcs

variable {X Y : Type}

/-- two fields, one after the other -/
def pairCodec (c : Codec X) (d : Codec Y) : Codec (X × Y) where
  ser x := c.ser x.1 ++ d.ser x.2
  de bs :=
    match c.de bs with
    | none => none
    | some (x, bs) =>
      match d.de bs with
      | none => none
      | some (y, bs) => some ((x, y), bs)

/-- a struct, given by its fields -/
def structCodec (build : X → Y) (fields : Y → X) (c : Codec X) : Codec Y where
  ser y := c.ser (fields y)
  de bs := (c.de bs).map fun z => (build z.1, z.2)

/-- `bool`: one byte, 0 or 1 -/
def boolCodec : Codec Bool where
  ser x := [if x then 1 else 0]
  de
    | [] => none
    | b :: bs => if b = 0 then some (false, bs) else if b = 1 then some (true, bs) else none

/-- `Option<T>`: whether there is a value, and the value -/
def optCodec (c : Codec X) : Codec (Option X) where
  ser
    | none => boolCodec.ser false
    | some x => boolCodec.ser true ++ c.ser x
  de bs :=
    match boolCodec.de bs with
    | none => none
    | some (false, bs) => some (none, bs)
    | some (true, bs) => (c.de bs).map fun z => (some z.1, z.2)

/-- an element of a prime field: its integer in as many bytes as the modulus has; larger integers are refused -/
def fieldCodec (p : ℕ) : Codec (ZMod p) where
  ser x := toLE ((bits p + 7) / 8) x.val
  de bs :=
    match readExact ((bits p + 7) / 8) bs with
    | none => none
    | some (l, bs) => if leNat l < p then some ((leNat l : ZMod p), bs) else none

variable {F G G2 : Type}

/-- `ProofEvaluations`, `structs.rs:394-405` -/
def evalsCodec (cF : Codec F) : Codec (Evals F) :=
  structCodec (fun x => ⟨x.1, x.2.1, x.2.2⟩) (fun e => (e.wires, e.sigmas, e.permNext))
    (pairCodec (vecCodec cF) (pairCodec (vecCodec cF) cF))

/-- `PlookupEvaluations`, `structs.rs:461-507` -/
def lkEvalsCodec (cF : Codec F) : Codec (LkEvals F) :=
  structCodec
    (fun (x1, x2, x3, x4, x5, x6, x7, x8, x9, x10, x11, x12, x13, x14, x15) =>
      ⟨x1, x2, x3, x4, x5, x6, x7, x8, x9, x10, x11, x12, x13, x14, x15⟩)
    (fun e => (e.range, e.key, e.tableDomSep, e.qDomSep, e.h1, e.qLookup, e.prodNext, e.rangeNext, e.keyNext,
      e.tableDomSepNext, e.h1Next, e.h2Next, e.qLookupNext, e.w3Next, e.w4Next))
    (pairCodec cF (pairCodec cF (pairCodec cF (pairCodec cF (pairCodec cF (pairCodec cF (pairCodec cF (pairCodec cF
      (pairCodec cF (pairCodec cF (pairCodec cF (pairCodec cF (pairCodec cF (pairCodec cF cF))))))))))))))

/-- `PlookupProof`, `structs.rs:209-221` -/
def lkProofCodec (cF : Codec F) (cG : Codec G) : Codec (LkProof F G) :=
  structCodec (fun x => ⟨x.1, x.2.1, x.2.2⟩) (fun l => (l.h, l.prod, l.evals))
    (pairCodec (vecCodec cG) (pairCodec cG (lkEvalsCodec cF)))

/-- `Proof`, `structs.rs:52-76` -/
def proofCodec (cF : Codec F) (cG : Codec G) : Codec (Proof F G) :=
  structCodec (fun (w, z, q, o, s, e, l) => ⟨w, z, q, o, s, e, l⟩)
    (fun b => (b.wires, b.prodPerm, b.quot, b.opening, b.shifted, b.evals, b.lookup))
    (pairCodec (vecCodec cG) (pairCodec cG (pairCodec (vecCodec cG) (pairCodec cG (pairCodec cG
      (pairCodec (evalsCodec cF) (optCodec (lkProofCodec cF cG))))))))

/-- `BatchProof`, `structs.rs:225-249` -/
def batchProofCodec (cF : Codec F) (cG : Codec G) : Codec (BProof F G) :=
  structCodec (fun (w, z, e, l, q, o, s) => ⟨w, z, e, l, q, o, s⟩)
    (fun b => (b.wires, b.prodPerm, b.evals, b.lookups, b.quot, b.opening, b.shifted))
    (pairCodec (vecCodec (vecCodec cG)) (pairCodec (vecCodec cG) (pairCodec (vecCodec (evalsCodec cF))
      (pairCodec (vecCodec (optCodec (lkProofCodec cF cG))) (pairCodec (vecCodec cG) (pairCodec cG cG))))))

/-- `UnivariateVerifierParam`, `srs.rs:48-64` -/
def openKeyCodec (cG : Codec G) (cG2 : Codec G2) : Codec (VerifierParam G G2) :=
  structCodec (fun (g, h, bh, ph, pg) => ⟨g, h, bh, ph, pg⟩)
    (fun k => (k.g, k.h, k.betaH, k.powersOfH, k.powersOfG))
    (pairCodec cG (pairCodec cG2 (pairCodec cG2 (pairCodec (vecCodec cG2) (vecCodec cG)))))

/-- `PlookupVerifyingKey`, `structs.rs:738-753` -/
def lkVkCodec (cG : Codec G) : Codec (LkVk G) :=
  structCodec (fun (r, k, t, q) => ⟨r, k, t, q⟩) (fun l => (l.range, l.key, l.tableDomSep, l.qDomSep))
    (pairCodec cG (pairCodec cG (pairCodec cG cG)))

/-- `VerifyingKey`, `structs.rs:647-673`; a `usize` is written as a `u64` -/
def vkCodec (cF : Codec F) (cG : Codec G) (cG2 : Codec G2) : Codec (VKey F G G2) :=
  structCodec (fun (n, i, s, q, k, o, m, l) => ⟨n, i, s, q, k, o, m, l⟩)
    (fun v => (v.domSize, v.numInputs, v.sigmas, v.selectors, v.k, v.openKey, v.merged, v.lookup))
    (pairCodec (uintCodec 8) (pairCodec (uintCodec 8) (pairCodec (vecCodec cG) (pairCodec (vecCodec cG)
      (pairCodec (vecCodec cF) (pairCodec (openKeyCodec cG cG2) (pairCodec boolCodec (optCodec (lkVkCodec cG)))))))))

/-- `PlookupProvingKey`, `structs.rs:560-573`; a `DensePolynomial` is the vector of its coefficients -/
def lkPkCodec (cF : Codec F) : Codec (LkPk F) :=
  structCodec (fun (r, k, t, q) => ⟨r, k, t, q⟩) (fun l => (l.range, l.key, l.tableDomSep, l.qDomSep))
    (pairCodec (vecCodec cF) (pairCodec (vecCodec cF) (pairCodec (vecCodec cF) (vecCodec cF))))

/-- `ProvingKey`, `structs.rs:540-556`, with `UnivariateProverParam`, `srs.rs:40-46` -/
def pkCodec (cF : Codec F) (cG : Codec G) (cG2 : Codec G2) : Codec (PKey F G G2) :=
  structCodec (fun (s, q, c, v, l) => ⟨s, q, ⟨c⟩, v, l⟩)
    (fun k => (k.sigmas, k.selectors, k.commitKey.powersOfG, k.vk, k.lookup))
    (pairCodec (vecCodec (vecCodec cF)) (pairCodec (vecCodec (vecCodec cF)) (pairCodec (vecCodec cG)
      (pairCodec (vkCodec cF cG cG2) (optCodec (lkPkCodec cF))))))

end Verif.Plonk.Serde
