import Verif.Plonk.Verifier

/-!
# The use of the transcript by the verifier

A transcript (`trait PlonkTranscript`, `plonk/src/transcript/mod.rs`) is the list of the calls of its methods
so far; a challenge is some function of that list, ending with the call that asks for it.  What the functions
of the three implementations keep of the calls is not part of this file.
-/

namespace Verif.Plonk

open Verif.Pcs

/-- the calls of the methods of `PlonkTranscript`, `transcript/mod.rs:41-167` -/
inductive Call (F G G2 : Type) where
  | message (label : String) (bytes : List ℕ)
  | vkAndInput (vk : VKey F G G2) (pi : List F)
  | commitments (label : String) (cs : List G)
  | commitment (label : String) (c : G)
  | evals (e : Evals F)
  | lkEvals (e : LkEvals F)
  | challenge (label : String)

section
variable {F G G2 : Type}

/-- `append_message` with the message of the caller, `verifier.rs:281-283` and `snark.rs:232-234` -/
def extraMsg (extra : Option (List ℕ)) : List (Call F G G2) :=
  match extra with
  | none => []
  | some m => [.message "extra info" m]

/-- `get_challenge` -/
def ask (oracle : List (Call F G G2) → F) (label : String) (t : List (Call F G G2)) :
    F × List (Call F G G2) :=
  (oracle (t ++ [.challenge label]), t ++ [.challenge label])

/-- the challenge `tau`, asked for only with lookups, `verifier.rs:290-294` and `snark.rs:257-261` -/
def askTau (oracle : List (Call F G G2) → F) (lookup : Bool) (t : List (Call F G G2)) :
    Option F × List (Call F G G2) :=
  if lookup then
    let (τ, t) := ask oracle "tau" t
    (some τ, t)
  else (none, t)

/-- `compute_challenges`, `verifier.rs:262-340`.  (The check of the lengths at its start repeats the one
`prepare` makes before it uses the challenges.) -/
def challenges (oracle : List (Call F G G2) → F) (extra : Option (List ℕ)) (vks : List (VKey F G G2))
    (pis : List (List F)) (b : BProof F G) : Chal F :=
  let t := extraMsg extra ++ (vks.zip pis).map (fun x => .vkAndInput x.1 x.2)
  let t := t ++ b.wires.map (.commitments "witness_poly_comms" ·)
  let (τ, t) := askTau oracle (vks.any (·.lookup.isSome)) t
  let t := t ++ b.lookups.filterMap (·.map (fun l => .commitments "h_poly_comms" l.h))
  let (β, t) := ask oracle "beta" t
  let (γ, t) := ask oracle "gamma" t
  let t := t ++ b.prodPerm.map (.commitment "perm_poly_comms" ·)
  let t := t ++ b.lookups.filterMap (·.map (fun l => .commitment "plookup_poly_comms" l.prod))
  let (α, t) := ask oracle "alpha" t
  let t := t ++ [.commitments "quot_poly_comms" b.quot]
  let (ζ, t) := ask oracle "zeta" t
  let t := t ++ b.evals.map (.evals ·)
  let t := t ++ b.lookups.filterMap (·.map (fun l => .lkEvals l.evals))
  let (v, t) := ask oracle "v" t
  let t := t ++ [.commitment "open_proof" b.opening, .commitment "shifted_open_proof" b.shifted]
  let (u, _) := ask oracle "u" t
  ⟨τ, α, β, γ, ζ, v, u⟩

end

end Verif.Plonk
