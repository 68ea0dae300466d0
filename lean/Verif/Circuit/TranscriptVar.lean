import Verif.Circuit.VerifierPoly
import Verif.Circuit.RescueGadget
import Verif.Plonk.RescueTranscript

/-!
# Model of the transcript circuit

`plonk/src/circuit/transcript.rs`, and `compute_challenges_vars` with what it calls (`plonk_verifier/gadgets.rs:193-266`,
`plonk_verifier/structs.rs:39-94`). The native field is `ZMod p`, the scalar field of the proofs `ZMod Q`; `K` are the
Rescue constants of the native field. A point variable is a pair of variables. Next to the challenges the functions
return the variables of the hashes they are taken from; the code does not return these.
-/

namespace Verif.Circuit.TranscriptVar

open Verif.Circuit Verif.Circuit.VerifierPoly
open Verif.Rescue (Vec Consts)

variable {p : ℕ}

/-- `RescueTranscriptVar`, `transcript.rs:29-33` -/
structure TrVar where
  vars : List ℕ
  state : Vec ℕ

/-- `new`, `transcript.rs:40-46`; `zero()` is variable `0` -/
def TrVar.new : TrVar := ⟨[], ⟨0, 0, 0, 0⟩⟩

/-- `append_variable` and `append_message_vars`, `transcript.rs:80-105` -/
def TrVar.push (t : TrVar) (l : List ℕ) : TrVar := { t with vars := t.vars ++ l }

/-- `append_commitment_var` and `append_commitments_vars`, `transcript.rs:111-138` -/
def TrVar.points (t : TrVar) (ps : List (ℕ × ℕ)) : TrVar := t.push (ps.flatMap fun P => [P.1, P.2])

/-- `convert_to_var` and `push` for every element, in order -/
def TrVar.elems (t : TrVar) (xs : List (FpElemVar p)) : Build p TrVar := do
  let vs ← toVars xs
  pure (t.push vs)

/-- `VerifyingKeyVar`, `plonk_verifier/mod.rs:36-55` -/
structure VkVar (Q : ℕ) where
  sigmas : List (ℕ × ℕ)
  selectors : List (ℕ × ℕ)
  merged : Bool
  domSize : ℕ
  numInputs : ℕ
  k : List (ZMod Q)

/-- `BatchProofVar`, `structs.rs:134-157` -/
structure ProofVar (p : ℕ) where
  wires : List (List (ℕ × ℕ))
  prodPerm : List (ℕ × ℕ)
  evals : List (EvalsVar p)
  quot : List (ℕ × ℕ)
  opening : ℕ × ℕ
  shifted : ℕ × ℕ

/-- `append_vk_and_pub_input_vars`, `transcript.rs:49-78` -/
def TrVar.vkAndInput {Q : ℕ} (t : TrVar) (vk : VkVar Q) (pi : List (FpElemVar p)) : Build p TrVar :=
  ((t.points vk.selectors).points vk.sigmas).elems pi

/-- `append_proof_evaluations_vars`, `transcript.rs:141-158` -/
def TrVar.evals (t : TrVar) (e : EvalsVar p) : Build p TrVar := t.elems (e.wires ++ e.sigmas ++ [e.permNext])

/-- `.unwrap()` -/
def unwrap {α : Type} (m : Build p α) : Build p α := fun c =>
  match m c with
  | .ok x => .ok x
  | .error _ => .error .panic

/-- `get_challenge_var`, `transcript.rs:168-212`: the challenge and the transcript afterwards -/
def TrVar.challenge (K : Consts) (Q : ℕ) (t : TrVar) : Build p (ℕ × TrVar) := do
  let l ← supportLookup
  if !l then Build.fail .parameter
  else if modulusBits Q ≠ 253 ∨ modulusBits p ≠ 377 then Build.fail .parameter
  else do
    let res ← unwrap (rescueSpongeWithPadding K (t.state.elems ++ t.vars) 4)
    match res with
    | [a, b, c, d] => do
      let ch ← truncate a 248
      pure (ch, ⟨[], ⟨a, b, c, d⟩⟩)
    | _ => Build.fail .panic

/-- `create_variable` for every element, `gadgets.rs:219-222` -/
def createAll : List (ZMod p) → Build p (List ℕ)
  | [] => pure []
  | x :: xs => do
    let v ← createVariable x
    let vs ← createAll xs
    pure (v :: vs)

/-- the message of the caller, `gadgets.rs:217-224`; also returns the variables of the message -/
def TrVar.extra (t : TrVar) : Option (List ℕ) → Build p (List ℕ × TrVar)
  | none => pure ([], t)
  | some m =>
    match Plonk.messageElems p m with
    | .error _ => Build.fail .panic
    | .ok l => do
      let vs ← createAll l
      pure (vs, t.push vs)

/-- the keys and public inputs of all instances, `gadgets.rs:225-227` -/
def TrVar.vksAndInputs {Q : ℕ} (t : TrVar) : List (VkVar Q × List (FpElemVar p)) → Build p TrVar
  | [] => pure t
  | x :: xs => do
    let t ← t.vkAndInput x.1 x.2
    t.vksAndInputs xs

/-- the evaluations of all instances, `gadgets.rs:244-246` -/
def TrVar.evalsAll (t : TrVar) : List (EvalsVar p) → Build p TrVar
  | [] => pure t
  | e :: es => do
    let t ← t.evals e
    t.evalsAll es

/-- one value for each of the challenges, in the order of the calls -/
structure Six (T : Type) where
  β : T
  γ : T
  α : T
  ζ : T
  v : T
  u : T

/-- `challenges` of `compute_challenges_vars`; also the variables of the hashes and of the message -/
structure Draws where
  ch : Six ℕ
  hash : Six ℕ
  msg : List ℕ

/-- the transcript part of `compute_challenges_vars`, `gadgets.rs:208-251` -/
def draws {Q : ℕ} (K : Consts) (vks : List (VkVar Q)) (pis : List (List (FpElemVar p))) (b : ProofVar p)
    (extra : Option (List ℕ)) : Build p Draws :=
  if vks.length ≠ b.prodPerm.length ∨ vks.length ≠ pis.length then Build.fail .parameter
  else do
    let m ← TrVar.new.extra extra
    let t ← m.2.vksAndInputs (vks.zip pis)
    let β ← (t.points b.wires.flatten).challenge K Q
    let γ ← β.2.challenge K Q
    let α ← (γ.2.points b.prodPerm).challenge K Q
    let ζ ← (α.2.points b.quot).challenge K Q
    let t ← ζ.2.evalsAll b.evals
    let v ← t.challenge K Q
    let u ← ((v.2.points [b.opening]).points [b.shifted]).challenge K Q
    pure ⟨⟨β.1, γ.1, α.1, ζ.1, v.1, u.1⟩,
      ⟨β.2.state.a, γ.2.state.a, α.2.state.a, ζ.2.state.a, v.2.state.a, u.2.state.a⟩, m.1⟩

/-- `challenge_var_to_fp_elem_var`, `structs.rs:39-94` -/
def toElems (I : Info p) (d : Six ℕ) : Build p (ChalVar p) := do
  let α ← newUnchecked d.α I.m I.tpm
  let α2 ← modMul α α I.mod
  let α3 ← modMul α2 α I.mod
  let β ← newUnchecked d.β I.m I.tpm
  let γ ← newUnchecked d.γ I.m I.tpm
  let ζ ← newUnchecked d.ζ I.m I.tpm
  let u ← newUnchecked d.u I.m I.tpm
  let v ← newUnchecked d.v I.m I.tpm
  pure ⟨α, α2, α3, β, γ, ζ, v, u⟩

/-- `compute_challenges_vars`, `gadgets.rs:193-266` -/
def challengesVars {Q : ℕ} (K : Consts) (I : Info p) (vks : List (VkVar Q)) (pis : List (List (FpElemVar p)))
    (b : ProofVar p) (extra : Option (List ℕ)) : Build p (ChalVar p × Draws) := do
  let d ← draws K vks pis b extra
  let ch ← toElems I d.ch
  pure (ch, d)

end Verif.Circuit.TranscriptVar
