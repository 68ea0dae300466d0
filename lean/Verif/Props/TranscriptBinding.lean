import Verif.Plonk.TranscriptBinding
import Verif.Props.Conversion
import Verif.Props.RescueSponge
import Mathlib.AlgebraicGeometry.EllipticCurve.Affine.Point

/-!
# C82: what the three transcripts bind the challenges to

Two runs of `compute_challenges` that end with the same last state (for `merlin`: the same operations) used the same
keys, inputs and proof, or the run exhibits a collision of the hash function.
-/

namespace Verif.Props.TranscriptBinding

open Verif.Plonk Verif.Conv
open Verif.Rescue (Vec)

variable {q r : ℕ} {G G2 : Type}

/-! ## Specification -/

/-- the strings that the Solidity transcript hashes in a run -/
def solQueries (xy : G → Option (ZMod q × ZMod q)) (serG2 : G2 → List Byte) (H : List Byte → List Byte) :
    List (ZMod r) × STr → List (Call (ZMod r) G G2) → List (List Byte)
  | _, [] => []
  | s, c :: cs =>
    (match c with
      | .challenge _ => [s.2.state ++ s.2.bytes]
      | _ => []) ++
    match STr.call xy serG2 H s c with
    | none => []
    | some s => solQueries xy serG2 H s cs

/-- the lists of field elements that the Rescue transcript hashes in a run -/
def rescueQueries (te : G → Option (ZMod q × ZMod q)) (f : Vec (ZMod q) → Vec (ZMod q)) :
    List (ZMod r) × RTr q → List (Call (ZMod r) G G2) → List (List (ZMod q))
  | _, [] => []
  | s, c :: cs =>
    (match c with
      | .challenge _ => [s.2.state.elems ++ s.2.elems]
      | _ => []) ++
    match RTr.call te f s c with
    | .error _ => []
    | .ok s => rescueQueries te f s cs

/-- sizes fit into a `usize`, and there is a second power in the reference string -/
structure Usable {F : Type} (v : VKey F G G2) : Prop where
  domSize : v.domSize < 2 ^ 64
  numInputs : v.numInputs < 2 ^ 64
  srs : v.openKey.powersOfH[1]?.isSome

/-- the same numbers of commitments and constants, both with or both without lookups -/
structure SameShape {F : Type} (v v' : VKey F G G2) : Prop where
  selectors : v.selectors.length = v'.selectors.length
  sigmas : v.sigmas.length = v'.sigmas.length
  k : v.k.length = v'.k.length
  lookup : v.lookup.isSome = v'.lookup.isSome

/-- what the verifier checks of keys, inputs and proof before it uses challenges -/
structure Checked {F : Type} (vks : List (VKey F G G2)) (pis : List (List F)) (b : BProof F G) : Prop where
  inputs : vks.length = pis.length
  instances : vks.length = b.prodPerm.length
  sizes : ∀ x ∈ vks.zip pis, x.2.length = x.1.numInputs
  lookups : vks.any (·.lookup.isSome) = false → b.lks = []

/-! ## Bytes -/

theorem toLE_inj {n u v : ℕ} (hu : u < 256 ^ n) (hv : v < 256 ^ n) (h : toLE n u = toLE n v) : u = v := by
  have := toLE_inj_of_eq _ _ _ h
  rwa [Nat.mod_eq_of_lt hu, Nat.mod_eq_of_lt hv] at this

theorem toBE_inj {n u v : ℕ} (hu : u < 256 ^ n) (hv : v < 256 ^ n) (h : toBE n u = toBE n v) : u = v :=
  toLE_inj hu hv (List.reverse_injective h)

theorem toBE_length (n v : ℕ) : (toBE n v).length = n := by rw [toBE, List.length_reverse, toLE_length]

theorem lt_usize {n : ℕ} (h : n < 2 ^ 64) : n < 256 ^ 8 := by
  rwa [show (256 : ℕ) ^ 8 = 2 ^ 64 by norm_num]

theorem toBytesBE_length {p : ℕ} (x : ZMod p) : (toBytesBE x).length = 8 * limbs p := by
  rw [toBytesBE, List.length_reverse, toBytesLE_length]

theorem toBytesBE_inj {p : ℕ} [NeZero p] : Function.Injective (toBytesBE : ZMod p → List Byte) := by
  intro x y h
  exact ZMod.val_injective p (toLE_inj (val_lt_bytes x) (val_lt_bytes y) (List.reverse_injective h))

theorem limbs_pos {p : ℕ} (hp : p ≠ 0) : 0 < limbs p := by
  have : 0 < bits p := Nat.size_pos.2 (Nat.pos_of_ne_zero hp)
  unfold limbs
  omega

theorem scalar_code (r : ℕ) [hr : NeZero r] : Code (toBytesBE : ZMod r → List Byte) (8 * limbs r) :=
  ⟨toBytesBE_length, toBytesBE_inj, by have := limbs_pos hr.out; omega⟩

theorem serField_inj {p : ℕ} [NeZero p] : Function.Injective (serField : ZMod p → List Byte) := by
  intro x y h
  have h3 : (2 : ℕ) ^ bits p ≤ 256 ^ ((bits p + 7) / 8) := by
    rw [show (256 : ℕ) = 2 ^ 8 by norm_num, ← pow_mul]
    exact Nat.pow_le_pow_right (by norm_num) (by omega)
  have h2 : p < 2 ^ bits p := Nat.lt_size_self p
  have hx := ZMod.val_lt x
  have hy := ZMod.val_lt y
  exact ZMod.val_injective p (toLE_inj (by omega) (by omega) h)

/-! ## Transcripts that hash at every challenge -/

theorem bound {F A S : Type} {H : S → List A → S} {enc : Call F G G2 → Option (List A)} {eS : F → List A} {eG : G → List A}
    {eV : VKey F G G2 → List A} {eM : Option (List ℕ) → List A} (hE : Encodes enc eS eG eV eM) {n m : ℕ} (hS : Code eS n)
    (hG : Code eG m) {K : VKey F G G2 → VKey F G G2 → Prop} {vks vks' : List (VKey F G G2)} {pis pis' : List (List F)}
    {b b' : BProof F G} {e e' : Option (List ℕ)} (hc : Checked vks pis b) (hc' : Checked vks' pis' b')
    (hsh : List.Forall₂ SameShape vks vks')
    (hV : List.Forall₂ (fun v v' => (eV v).length = (eV v').length ∧ (eV v = eV v' → K v v')) vks vks')
    (hK : ∀ v v', K v v' → v.numInputs = v'.numInputs) (hM : (eM e).length = (eM e').length) {s : S} {t t' : S × List A}
    (h : run H enc (s, []) (verifierCalls e vks pis b) = some t)
    (h' : run H enc (s, []) (verifierCalls e' vks' pis' b') = some t') (ht : t.1 = t'.1) :
    (∃ x ∈ runQueries H enc (s, []) (verifierCalls e vks pis b), ∃ y ∈ runQueries H enc (s, []) (verifierCalls e' vks' pis' b'),
      x ≠ y ∧ H x.1 x.2 = H y.1 y.2) ∨ (eM e = eM e' ∧ List.Forall₂ K vks vks' ∧ pis = pis' ∧ ProofEq b b') := by
  obtain ⟨rfl, q1⟩ := verifier_through hE e vks pis b _ _ h
  obtain ⟨rfl, q2⟩ := verifier_through hE e' vks' pis' b' _ _ h'
  have hL : List.Forall₂ (fun v v' : VKey F G G2 => v.lookup.isSome = v'.lookup.isSome) vks vks' := hsh.imp fun _ _ h => h.lookup
  have ha := any_isSome hL
  rw [q1, q2]
  rcases fold_collision H (segs_length e e' pis pis' b b' ha) s s ht with ⟨-, hseg⟩ | hcol
  · refine Or.inr (segs_inj hS hG hc.inputs hc'.inputs hV hL ?_ hM ?_ ?_ hseg)
    · intro x hx y hy hxy
      rw [hc.sizes x hx, hc'.sizes y hy, hK _ _ hxy]
    · rw [← hc.instances, ← hc'.instances, hsh.length_eq]
    · intro hn
      exact ⟨hc.lookups hn, hc'.lookups (ha ▸ hn)⟩
  · exact Or.inl hcol

theorem foldQueries_state {S A : Type} {H : S → List A → S} {P : S → Prop} (hH : ∀ s l, P (H s l)) {s : S} (hs : P s)
    (L : List (List A)) : ∀ x ∈ foldQueries H s L, P x.1 := by
  induction L generalizing s with
  | nil => intro x hx; cases hx
  | cons l L ih =>
    intro x hx
    rcases List.mem_cons.1 hx with rfl | hx
    · exact hs
    · exact ih (hH _ _) x hx

/-! ## Solidity -/

section
variable {xy : G → Option (ZMod q × ZMod q)} {serG2 : G2 → List Byte} {H : List Byte → List Byte}

theorem point_code [hq : NeZero q] (hxy : Function.Injective xy) (h0 : ∀ c, xy c ≠ some (0, 0)) :
    Code (solPoint xy) (16 * limbs q) := by
  refine ⟨fun c => ?_, fun c c' h => ?_, by have := limbs_pos hq.out; omega⟩
  · unfold solPoint
    split <;> simp only [List.length_append, toBytesBE_length] <;> ring
  · apply hxy
    unfold solPoint at h
    have inj : ∀ a b a' b' : ZMod q, toBytesBE a ++ toBytesBE b = toBytesBE a' ++ toBytesBE b' → a = a' ∧ b = b' := by
      intro a b a' b' h
      obtain ⟨h1, h2⟩ := List.append_inj h (by rw [toBytesBE_length, toBytesBE_length])
      exact ⟨toBytesBE_inj h1, toBytesBE_inj h2⟩
    cases hc : xy c with
    | none =>
      cases hc' : xy c' with
      | none => rfl
      | some P =>
        rw [hc, hc'] at h
        obtain ⟨h1, h2⟩ := inj _ _ _ _ h
        exact absurd (show P = (0, 0) from Prod.ext h1.symm h2.symm) fun e => h0 c' (hc'.trans (congrArg some e))
    | some P =>
      cases hc' : xy c' with
      | none =>
        rw [hc, hc'] at h
        obtain ⟨h1, h2⟩ := inj _ _ _ _ h
        exact absurd (show P = (0, 0) from Prod.ext h1 h2) fun e => h0 c (hc.trans (congrArg some e))
      | some P' =>
        rw [hc, hc'] at h
        obtain ⟨h1, h2⟩ := inj _ _ _ _ h
        exact congrArg some (Prod.ext h1 h2)

/-- the bytes of a key -/
def solKey (xy : G → Option (ZMod q × ZMod q)) (serG2 : G2 → List Byte) (v : VKey (ZMod r) G G2) : List Byte :=
  match v.openKey.powersOfH[1]? with
  | none => []
  | some h =>
    toBE 4 (bits r) ++ (toBE 8 v.domSize ++ (toBE 8 v.numInputs ++ (List.replicate 12 0 ++ (serG2 h ++
      (v.k.flatMap toBytesBE ++ (v.selectors.flatMap (solPoint xy) ++ v.sigmas.flatMap (solPoint xy)))))))

/-- the bytes of a call -/
def solEnc (xy : G → Option (ZMod q × ZMod q)) (serG2 : G2 → List Byte) : Call (ZMod r) G G2 → Option (List Byte)
  | .message _ m => some (toBytes m)
  | .vkAndInput vk pi => if vk.openKey.powersOfH[1]?.isSome then some (solKey xy serG2 vk ++ pi.flatMap toBytesBE) else none
  | .commitments _ cs => some (cs.flatMap (solPoint xy))
  | .commitment _ c => some (solPoint xy c)
  | .evals e => some (e.all.flatMap toBytesBE)
  | .lkEvals e => some (e.all.flatMap toBytesBE)
  | .challenge _ => none

theorem sol_encodes : Encodes (solEnc xy serG2 : Call (ZMod r) G G2 → _) toBytesBE (solPoint xy) (solKey xy serG2)
    (fun e => toBytes (e.getD [])) := by
  refine ⟨rfl, ?_, ?_, ?_, ?_, ?_, ?_⟩
  · rintro lb m a ⟨⟩; rfl
  · intro vk pi a h
    simp only [solEnc] at h
    split at h
    · cases h; rfl
    · cases h
  · rintro lb m a ⟨⟩; rfl
  · rintro lb m a ⟨⟩; rfl
  · rintro e a ⟨⟩; rfl
  · rintro e a ⟨⟩; rfl

theorem sol_call {out : List (ZMod r)} {t : STr} {c : Call (ZMod r) G G2} (hc : ∀ lb, c ≠ .challenge lb) :
    STr.call xy serG2 H (out, t) c = (solEnc xy serG2 c).map fun a => (out, t.push a) := by
  have pp : ∀ (t : STr) (a b : List Byte), (t.push a).push b = t.push (a ++ b) := by
    intro t a b; simp [STr.push]
  cases c with
  | challenge lb => exact absurd rfl (hc lb)
  | vkAndInput vk pi =>
    simp only [STr.call, STr.vkAndInput, solEnc, solKey]
    cases h : vk.openKey.powersOfH[1]? with
    | none => rfl
    | some h =>
      simp only [STr.scalars, STr.points, pp, Option.map_some, Option.isSome_some, if_true, List.append_assoc]
  | evals e =>
    simp only [STr.call, solEnc, Option.map_some, STr.scalars, pp, Evals.all, List.flatMap_append]
  | lkEvals e =>
    simp only [STr.call, solEnc, Option.map_some, STr.scalars, pp, LkEvals.all, List.flatMap_append]
  | _ => rfl

/-- a run of the Solidity transcript as a run of the machine -/
theorem sol_run {out : List (ZMod r)} {t : STr} {l : List (Call (ZMod r) G G2)} {x : List (ZMod r) × STr}
    (h : STr.calls xy serG2 H (out, t) l = some x) :
    run (fun s b => H (s ++ b)) (solEnc xy serG2) (t.state, t.bytes) l = some (x.2.state, x.2.bytes) ∧
      solQueries xy serG2 H (out, t) l =
        (runQueries (fun s b => H (s ++ b)) (solEnc xy serG2) (t.state, t.bytes) l).map fun y => y.1 ++ y.2 := by
  induction l generalizing out t with
  | nil => cases h; exact ⟨rfl, rfl⟩
  | cons c l ih =>
    have key : ∀ c : Call (ZMod r) G G2, (∀ lb, c ≠ .challenge lb) → STr.calls xy serG2 H (out, t) (c :: l) = some x →
        ∃ a, solEnc xy serG2 c = some a ∧ STr.call xy serG2 H (out, t) c = some (out, t.push a) ∧
        STr.calls xy serG2 H (out, t.push a) l = some x := by
      intro c hc h
      unfold STr.calls at h
      rw [sol_call hc] at h ⊢
      cases he : solEnc xy serG2 c with
      | none => rw [he] at h; cases h
      | some a => rw [he] at h; exact ⟨a, rfl, rfl, h⟩
    cases c with
    | challenge lb =>
      obtain ⟨h1, h2⟩ := ih h
      exact ⟨h1, congrArg ((t.state ++ t.bytes) :: ·) h2⟩
    | _ =>
      obtain ⟨a, h1, h2, h3⟩ := key _ (by intro lb hh; cases hh) h
      obtain ⟨i1, i2⟩ := ih h3
      simp only [run, runQueries, solQueries, h1, h2, List.nil_append]
      exact ⟨i1, i2⟩

theorem solKey_ok [NeZero r] [NeZero q] (hxy : Function.Injective xy) (h0 : ∀ c, xy c ≠ some (0, 0))
    (hG2 : Function.Injective serG2) (hlen : ∀ a b, (serG2 a).length = (serG2 b).length) {v v' : VKey (ZMod r) G G2}
    (hv : Usable v) (hv' : Usable v') (hs : SameShape v v') :
    (solKey xy serG2 v).length = (solKey xy serG2 v').length ∧ (solKey xy serG2 v = solKey xy serG2 v' → KeyEq v v') := by
  obtain ⟨g, hg⟩ := Option.isSome_iff_exists.1 hv.srs
  obtain ⟨g', hg'⟩ := Option.isSome_iff_exists.1 hv'.srs
  have pc := point_code hxy h0
  unfold solKey
  rw [hg, hg']
  constructor
  · simp only [List.length_append, toBE_length, hlen g g', (scalar_code r).flatMap_length, pc.flatMap_length, hs.k, hs.selectors,
      hs.sigmas]
  · intro h
    obtain ⟨-, h⟩ := List.append_inj h rfl
    obtain ⟨d, h⟩ := List.append_inj h (by rw [toBE_length, toBE_length])
    obtain ⟨i, h⟩ := List.append_inj h (by rw [toBE_length, toBE_length])
    obtain ⟨-, h⟩ := List.append_inj h rfl
    obtain ⟨s, h⟩ := List.append_inj h (hlen _ _)
    obtain ⟨k, h⟩ := (scalar_code r).append_inj hs.k h
    obtain ⟨a, h⟩ := pc.append_inj hs.selectors h
    exact ⟨toBE_inj (lt_usize hv.domSize) (lt_usize hv'.domSize) d, toBE_inj (lt_usize hv.numInputs) (lt_usize hv'.numInputs) i,
      by rw [hg, hg', hG2 s], k, a, pc.flatMap_inj h⟩

/-- **C82, Solidity.** Two runs of the verifier's transcript with the same last state: the runs hash two different strings
to the same value, or the message and the inputs are the same, the keys agree on everything but the commitments of the
lookup argument (and the flag for merged keys), and the proofs agree up to boundaries inside of lists. -/
theorem C82_solidity_partial [NeZero r] [NeZero q] (hxy : Function.Injective xy) (h0 : ∀ c, xy c ≠ some (0, 0))
    (hG2 : Function.Injective serG2) (hlen : ∀ a b, (serG2 a).length = (serG2 b).length) (hH : ∀ x, (H x).length = 32)
    {e e' : Option (List ℕ)} {vks vks' : List (VKey (ZMod r) G G2)} {pis pis' : List (List (ZMod r))} {b b' : BProof (ZMod r) G}
    (hc : Checked vks pis b) (hc' : Checked vks' pis' b') (hu : ∀ v ∈ vks, Usable v) (hu' : ∀ v ∈ vks', Usable v)
    (hsh : List.Forall₂ SameShape vks vks') (he : e.map List.length = e'.map List.length)
    {x x' : List (ZMod r) × STr} (h : STr.calls xy serG2 H ([], STr.new) (verifierCalls e vks pis b) = some x)
    (h' : STr.calls xy serG2 H ([], STr.new) (verifierCalls e' vks' pis' b') = some x') (hx : x.2.state = x'.2.state) :
    (∃ m ∈ solQueries xy serG2 H ([], STr.new) (verifierCalls e vks pis b),
      ∃ m' ∈ solQueries xy serG2 H ([], STr.new) (verifierCalls e' vks' pis' b'), m ≠ m' ∧ H m = H m') ∨
    (e.map toBytes = e'.map toBytes ∧ List.Forall₂ KeyEq vks vks' ∧ pis = pis' ∧ ProofEq b b') := by
  obtain ⟨r1, q1⟩ := sol_run h
  obtain ⟨r2, q2⟩ := sol_run h'
  have hm : (toBytes (e.getD [])).length = (toBytes (e'.getD [])).length := by
    cases e <;> cases e' <;> simp_all [toBytes]
  have hV : List.Forall₂ (fun v v' : VKey (ZMod r) G G2 => (solKey xy serG2 v).length = (solKey xy serG2 v').length ∧
      (solKey xy serG2 v = solKey xy serG2 v' → KeyEq v v')) vks vks' := by
    clear hc hc' h h' r1 r2 q1 q2
    induction hsh with
    | nil => exact .nil
    | cons h1 _ ih =>
      exact .cons (solKey_ok hxy h0 hG2 hlen (hu _ List.mem_cons_self) (hu' _ List.mem_cons_self) h1)
        (ih (fun v hv => hu v (List.mem_cons_of_mem _ hv)) (fun v hv => hu' v (List.mem_cons_of_mem _ hv)))
  rcases bound sol_encodes (scalar_code r) (point_code hxy h0) hc hc' hsh hV (fun _ _ h => h.numInputs) hm r1 r2 hx with
    ⟨y, hy, y', hy', hne, hHy⟩ | ⟨h1, h2⟩
  · left
    rw [q1, q2]
    refine ⟨_, List.mem_map_of_mem hy, _, List.mem_map_of_mem hy', fun heq => hne ?_, hHy⟩
    have st : ∀ (e : Option (List ℕ)) (vks : List (VKey (ZMod r) G G2)) (pis : List (List (ZMod r))) (b : BProof (ZMod r) G) t y,
        run (fun s b => H (s ++ b)) (solEnc xy serG2) (STr.new.state, STr.new.bytes) (verifierCalls e vks pis b) = some t →
        y ∈ runQueries (fun s b => H (s ++ b)) (solEnc xy serG2) (STr.new.state, STr.new.bytes) (verifierCalls e vks pis b) →
        y.1.length = 32 := by
      intro e vks pis b t y hr hy
      obtain ⟨-, hq⟩ := verifier_through sol_encodes e vks pis b _ _ hr
      rw [show (STr.new.state, STr.new.bytes) = (STr.new.state, []) from rfl, hq] at hy
      exact foldQueries_state (P := fun s => s.length = 32) (fun _ _ => hH _) (by rfl) _ y hy
    obtain ⟨e1, e2⟩ := List.append_inj heq (by rw [st _ _ _ _ _ _ r1 hy, st _ _ _ _ _ _ r2 hy'])
    exact Prod.ext e1 e2
  · right
    refine ⟨?_, h2⟩
    cases e <;> cases e' <;> simp_all

end

/-! ## Rescue -/

/-- two keys have the parts that the Rescue transcript absorbs in common (and take the same number of inputs, which it
does not absorb) -/
structure KeyEqR {F : Type} (v v' : VKey F G G2) : Prop where
  numInputs : v.numInputs = v'.numInputs
  selectors : v.selectors = v'.selectors
  sigmas : v.sigmas = v'.sigmas

section
variable {te : G → ZMod q × ZMod q} {f : Vec (ZMod q) → Vec (ZMod q)}

/-- the elements of a scalar -/
def resScalar (q : ℕ) {r : ℕ} (x : ZMod r) : List (ZMod q) := [(x.val : ZMod q)]

/-- the elements of a commitment -/
def resPoint (te : G → ZMod q × ZMod q) (c : G) : List (ZMod q) := [(te c).1, (te c).2]

/-- the elements of a key -/
def resKey (te : G → ZMod q × ZMod q) (v : VKey (ZMod r) G G2) : List (ZMod q) :=
  v.selectors.flatMap (resPoint te) ++ v.sigmas.flatMap (resPoint te)

/-- the elements of the message -/
def resMsg (q : ℕ) (e : Option (List ℕ)) : List (ZMod q) :=
  match e with
  | none => []
  | some m =>
    match messageElems q m with
    | .ok l => l
    | .error _ => []

/-- the elements of a call -/
def resEnc (te : G → ZMod q × ZMod q) : Call (ZMod r) G G2 → Option (List (ZMod q))
  | .message _ m =>
    match messageElems q m with
    | .ok l => some l
    | .error _ => none
  | .vkAndInput vk pi => some (resKey te vk ++ pi.flatMap (resScalar q))
  | .commitments _ cs => some (cs.flatMap (resPoint te))
  | .commitment _ c => some (resPoint te c)
  | .evals e => some (e.all.flatMap (resScalar q))
  | .lkEvals e => some (e.all.flatMap (resScalar q))
  | .challenge _ => none

/-- the next state -/
def resHash (f : Vec (ZMod q) → Vec (ZMod q)) (s : Vec (ZMod q)) (l : List (ZMod q)) : Vec (ZMod q) :=
  match Rescue.variableEvaluate f 4 (s.elems ++ l) with
  | .ok [a, b, c, d] => ⟨a, b, c, d⟩
  | _ => s

theorem res_encodes : Encodes (resEnc te : Call (ZMod r) G G2 → _) (resScalar q) (resPoint te) (resKey te) (resMsg q) := by
  refine ⟨rfl, ?_, ?_, ?_, ?_, ?_, ?_⟩
  · intro lb m a h
    simp only [resEnc] at h
    split at h
    · next l hl => cases h; simp only [resMsg, hl]
    · cases h
  · rintro vk pi a ⟨⟩; rfl
  · rintro lb m a ⟨⟩; rfl
  · rintro lb m a ⟨⟩; rfl
  · rintro e a ⟨⟩; rfl
  · rintro e a ⟨⟩; rfl

theorem rpush (t : RTr q) (a b : List (ZMod q)) : (t.push a).push b = t.push (a ++ b) := by simp [RTr.push]

theorem rpush_nil (t : RTr q) : t.push [] = t := by simp [RTr.push]

theorem res_scalars [NeZero q] [NeZero r] (hq : Odd q) (hrq : r ≤ q) (xs : List (ZMod r)) (t : RTr q) :
    t.scalars xs = .ok (t.push (xs.flatMap (resScalar q))) := by
  induction xs generalizing t with
  | nil => rw [List.flatMap_nil, rpush_nil]; rfl
  | cons x xs ih =>
    have hlt := ZMod.val_lt x
    obtain ⟨y, h1, h2⟩ := (Conv.C45_switch_partial r q hq
      (hrq.trans (Nat.le_mul_of_pos_right _ (by positivity))) x).1 (by omega)
    unfold RTr.scalars
    rw [h1]
    simp only
    rw [ih, rpush]
    have : y = ((x.val : ℕ) : ZMod q) := by
      rw [← h2, ZMod.natCast_zmod_val]
    rw [this]
    rfl

theorem res_commitments (cs : List G) (t : RTr q) :
    t.commitments (fun c => some (te c)) cs = .ok (t.push (cs.flatMap (resPoint te))) := by
  induction cs generalizing t with
  | nil => rw [List.flatMap_nil, rpush_nil]; rfl
  | cons c cs ih =>
    unfold RTr.commitments RTr.commitment
    simp only
    rw [ih, rpush]
    rfl

theorem res_call [NeZero q] [NeZero r] (hq : Odd q) (hrq : r ≤ q) {out : List (ZMod r)} {t : RTr q}
    {c : Call (ZMod r) G G2} (hc : ∀ lb, c ≠ .challenge lb) {x : List (ZMod r) × RTr q}
    (h : RTr.call (fun c => some (te c)) f (out, t) c = .ok x) : ∃ a, resEnc te c = some a ∧ x = (out, t.push a) := by
  cases c with
  | challenge lb => exact absurd rfl (hc lb)
  | message lb m =>
    simp only [RTr.call, RTr.message, resEnc] at h ⊢
    split at h
    · cases h
    · next l hl => cases h; rw [hl]; exact ⟨_, rfl, rfl⟩
  | vkAndInput vk pi =>
    simp only [RTr.call, RTr.vkAndInput, res_commitments, res_scalars hq hrq, rpush] at h
    cases h
    exact ⟨_, rfl, rfl⟩
  | commitments lb cs =>
    simp only [RTr.call, res_commitments] at h
    cases h
    exact ⟨_, rfl, rfl⟩
  | commitment lb c => cases h; exact ⟨_, rfl, rfl⟩
  | evals e =>
    simp only [RTr.call, RTr.evals, res_scalars hq hrq] at h
    cases h
    exact ⟨_, rfl, rfl⟩
  | lkEvals e =>
    simp only [RTr.call, RTr.lkEvals, res_scalars hq hrq] at h
    cases h
    exact ⟨_, rfl, rfl⟩

theorem res_challenge {t : RTr q} {y : ZMod r × RTr q} (h : t.challenge f r = .ok y) :
    y.2 = ⟨[], resHash f t.state t.elems⟩ ∧
      Rescue.variableEvaluate f 4 (t.state.elems ++ t.elems) = .ok (resHash f t.state t.elems).elems := by
  unfold RTr.challenge at h
  unfold resHash
  split at h
  · next a b c d he =>
    split at h
    · cases h
    · cases h
      rw [he]
      exact ⟨rfl, rfl⟩
  · cases h

/-- a run of the Rescue transcript as a run of the machine -/
theorem res_run [NeZero q] [NeZero r] (hq : Odd q) (hrq : r ≤ q) {out : List (ZMod r)} {t : RTr q}
    {l : List (Call (ZMod r) G G2)} {x : List (ZMod r) × RTr q}
    (h : RTr.calls (fun c => some (te c)) f (out, t) l = .ok x) :
    run (resHash f) (resEnc te) (t.state, t.elems) l = some (x.2.state, x.2.elems) ∧
      rescueQueries (fun c => some (te c)) f (out, t) l =
        ((runQueries (resHash f) (resEnc te) (t.state, t.elems) l).map fun y => y.1.elems ++ y.2) ∧
      ∀ y ∈ runQueries (resHash f) (resEnc te) (t.state, t.elems) l,
        Rescue.variableEvaluate f 4 (y.1.elems ++ y.2) = .ok (resHash f y.1 y.2).elems := by
  induction l generalizing out t with
  | nil => cases h; exact ⟨rfl, rfl, fun _ h => by cases h⟩
  | cons c l ih =>
    have key : ∀ c : Call (ZMod r) G G2, (∀ lb, c ≠ .challenge lb) →
        RTr.calls (fun c => some (te c)) f (out, t) (c :: l) = .ok x →
        ∃ a, resEnc te c = some a ∧ RTr.call (fun c => some (te c)) f (out, t) c = .ok (out, t.push a) ∧
        RTr.calls (fun c => some (te c)) f (out, t.push a) l = .ok x := by
      intro c hc h
      unfold RTr.calls at h
      split at h
      · cases h
      · next s hs =>
        obtain ⟨a, h1, rfl⟩ := res_call hq hrq hc hs
        exact ⟨a, h1, hs, h⟩
    cases c with
    | challenge lb =>
      unfold RTr.calls at h
      split at h
      · cases h
      · next s hs =>
        have hs0 := hs
        simp only [RTr.call] at hs
        cases hch : t.challenge f r with
        | error e => rw [hch] at hs; cases hs
        | ok y =>
          rw [hch] at hs
          cases hs
          obtain ⟨h1, h2⟩ := res_challenge hch
          obtain ⟨y1, y2⟩ := y
          simp only at h1
          subst h1
          obtain ⟨i1, i2, i3⟩ := ih h
          refine ⟨i1, ?_, ?_⟩
          · simp only [rescueQueries, hs0, runQueries, List.map_cons]
            exact congrArg ((t.state.elems ++ t.elems) :: ·) i2
          · intro y hy
            rcases List.mem_cons.1 hy with rfl | hy
            · exact h2
            · exact i3 y hy
    | _ =>
      obtain ⟨a, h1, h2, h3⟩ := key _ (by intro lb hh; cases hh) h
      obtain ⟨i1, i2, i3⟩ := ih h3
      simp only [run, runQueries, rescueQueries, h1, h2, List.nil_append]
      exact ⟨i1, i2, i3⟩

theorem res_scalar_code [NeZero r] (hrq : r ≤ q) : Code (resScalar q : ZMod r → _) 1 := by
  refine ⟨fun _ => rfl, fun x y h => ?_, by norm_num⟩
  have hx := ZMod.val_lt x
  have hy := ZMod.val_lt y
  simp only [resScalar, List.cons.injEq, and_true] at h
  rw [ZMod.natCast_eq_natCast_iff, Nat.ModEq, Nat.mod_eq_of_lt (by omega), Nat.mod_eq_of_lt (by omega)] at h
  exact ZMod.val_injective r h

theorem res_point_code (hte : Function.Injective te) : Code (resPoint te) 2 := by
  refine ⟨fun _ => rfl, fun x y h => hte ?_, by norm_num⟩
  simp only [resPoint, List.cons.injEq, and_true] at h
  exact Prod.ext h.1 h.2

theorem flatten_singles {X : Type} {l l' : List (List X)} (h : ∀ x ∈ l, x.length = 1) (h' : ∀ x ∈ l', x.length = 1)
    (heq : l.flatten = l'.flatten) : l = l' := by
  induction l generalizing l' with
  | nil =>
    cases l' with
    | nil => rfl
    | cons y l' =>
      have := h' y List.mem_cons_self
      have h2 := congrArg List.length heq
      simp only [List.flatten_nil, List.length_nil, List.flatten_cons, List.length_append] at h2
      omega
  | cons x l ih =>
    cases l' with
    | nil =>
      have := h x List.mem_cons_self
      have h2 := congrArg List.length heq
      simp only [List.flatten_nil, List.length_nil, List.flatten_cons, List.length_append] at h2
      omega
    | cons y l' =>
      rw [List.flatten_cons, List.flatten_cons] at heq
      obtain ⟨h1, h2⟩ := List.append_inj heq (by rw [h x List.mem_cons_self, h' y List.mem_cons_self])
      rw [h1, ih (fun z hz => h z (List.mem_cons_of_mem _ hz)) (fun z hz => h' z (List.mem_cons_of_mem _ hz)) h2]

/-- the elements of a message: their number, and that they determine its bytes -/
theorem message_elems {q : ℕ} (hq : 64 < bits q) (m : List ℕ) (hm : (bits q - 1) / 8 + m.length < 2 ^ 64) :
    ∃ L : List (List (ZMod q)), bytesToFieldElements q 1 (toBytes m) = .ok L ∧ messageElems q m = .ok L.flatten ∧
      (∀ x ∈ L, x.length = 1) ∧
      L.flatten.length = if m = [] then 0 else 1 + (m.length + (bits q - 1) / 8 - 1) / ((bits q - 1) / 8) := by
  have hl : ∀ L : List (List (ZMod q)), (∀ x ∈ L, x.length = 1) → L.flatten.length = L.length := by
    intro L hL
    induction L with
    | nil => rfl
    | cons x L ih =>
      rw [List.flatten_cons, List.length_append, hL x List.mem_cons_self, ih (fun z hz => hL z (List.mem_cons_of_mem _ hz)),
        List.length_cons, add_comm]
  by_cases h0 : m = []
  · subst h0
    have : bytesToFieldElements q 1 [] = .ok [] := by
      unfold bytesToFieldElements compileTimeChecks
      rw [if_pos hq]
      simp only
      rw [if_pos (by omega)]
      rfl
    refine ⟨[], this, ?_, by simp, by simp⟩
    unfold messageElems
    rw [List.map_nil, this]
  · have hne : toBytes m ≠ [] := by simpa [toBytes] using h0
    have hlen : (toBytes m).length = m.length := by simp [toBytes]
    obtain ⟨L, h1, h2, h3, -⟩ := toElems_ok hq (k := 1) (by norm_num) (toBytes m) hne (by rw [hlen, mul_one]; exact hm)
    have h4 : ∀ x ∈ ofU64 q 1 (toBytes m).length :: L, x.length = 1 := by
      intro x hx
      rcases List.mem_cons.1 hx with rfl | hx
      · simp [ofU64]
      · exact h3 x hx
    refine ⟨_, h1, ?_, h4, ?_⟩
    · unfold messageElems
      rw [show List.map (Fin.ofNat 256) m = toBytes m from rfl, h1]
    · rw [hl _ h4, if_neg h0, List.length_cons, h2, hlen, mul_one, add_comm]

theorem resMsg_ok {q : ℕ} (hq : 64 < bits q) {e e' : Option (List ℕ)} (he : e.map List.length = e'.map List.length)
    (hm : ∀ m ∈ e, (bits q - 1) / 8 + m.length < 2 ^ 64) :
    (resMsg q e).length = (resMsg q e').length ∧ (resMsg q e = resMsg q e' → e.map toBytes = e'.map toBytes) := by
  match e, e', he with
  | none, none, _ => exact ⟨rfl, fun _ => rfl⟩
  | some m, some m', he =>
    have hl : m.length = m'.length := by simpa using he
    have hm1 := hm m rfl
    obtain ⟨L, a1, a2, a3, a4⟩ := message_elems hq m hm1
    obtain ⟨L', b1, b2, b3, b4⟩ := message_elems hq m' (hl ▸ hm1)
    have hnil : m = [] ↔ m' = [] := by rw [← List.length_eq_zero_iff, ← List.length_eq_zero_iff, hl]
    simp only [resMsg, a2, b2]
    refine ⟨by simp only [a4, b4, hnil, hl], fun h => ?_⟩
    have := flatten_singles a3 b3 h
    have hlt : ∀ m : List ℕ, (toBytes m).length = m.length := fun m => by simp [toBytes]
    rw [Option.map_some, Option.map_some, Conv.C44_to_elements_injective q 1 hq (by norm_num) (toBytes m) (toBytes m')
      (by rw [hlt, mul_one]; exact hm1) (by rw [hlt, mul_one]; exact hl ▸ hm1) (by rw [a1, b1, this])]

/-- **C82, Rescue.** As for Solidity, but of the keys only the commitments to selectors and permutation are bound: the
domain size, the number of inputs, the separators `k` and the reference string are not absorbed. -/
theorem C82_rescue_partial [NeZero r] [NeZero q] (hq : Odd q) (hq64 : 64 < bits q) (hrq : r ≤ q) (hte : Function.Injective te)
    {e e' : Option (List ℕ)} {vks vks' : List (VKey (ZMod r) G G2)} {pis pis' : List (List (ZMod r))} {b b' : BProof (ZMod r) G}
    (hc : Checked vks pis b) (hc' : Checked vks' pis' b')
    (hsh : List.Forall₂ (fun v v' => SameShape v v' ∧ v.numInputs = v'.numInputs) vks vks')
    (he : e.map List.length = e'.map List.length) (hm : ∀ m ∈ e, (bits q - 1) / 8 + m.length < 2 ^ 64)
    {x x' : List (ZMod r) × RTr q}
    (h : RTr.calls (fun c => some (te c)) f ([], RTr.new q) (verifierCalls e vks pis b) = .ok x)
    (h' : RTr.calls (fun c => some (te c)) f ([], RTr.new q) (verifierCalls e' vks' pis' b') = .ok x')
    (hx : x.2.state = x'.2.state) :
    (∃ m ∈ rescueQueries (fun c => some (te c)) f ([], RTr.new q) (verifierCalls e vks pis b),
      ∃ m' ∈ rescueQueries (fun c => some (te c)) f ([], RTr.new q) (verifierCalls e' vks' pis' b'), m ≠ m' ∧
        ∃ y, Rescue.variableEvaluate f 4 m = .ok y ∧ Rescue.variableEvaluate f 4 m' = .ok y) ∨
    (e.map toBytes = e'.map toBytes ∧ List.Forall₂ KeyEqR vks vks' ∧ pis = pis' ∧ ProofEq b b') := by
  obtain ⟨r1, q1, v1⟩ := res_run hq hrq h
  obtain ⟨r2, q2, v2⟩ := res_run hq hrq h'
  obtain ⟨m1, m2⟩ := resMsg_ok hq64 he hm
  have pc := res_point_code hte
  have hV : List.Forall₂ (fun v v' : VKey (ZMod r) G G2 => (resKey te v).length = (resKey te v').length ∧
      (resKey te v = resKey te v' → KeyEqR v v')) vks vks' := by
    refine hsh.imp fun v v' ⟨hs, hn⟩ => ⟨?_, fun h => ?_⟩
    · simp only [resKey, List.length_append, pc.flatMap_length, hs.selectors, hs.sigmas]
    · obtain ⟨a, h⟩ := pc.append_inj hs.selectors h
      exact ⟨hn, a, pc.flatMap_inj h⟩
  rcases bound res_encodes (res_scalar_code hrq) pc hc hc' (hsh.imp fun _ _ h => h.1) hV (fun _ _ h => h.numInputs) m1 r1 r2 hx
    with ⟨y, hy, y', hy', hne, hHy⟩ | ⟨h1, h2⟩
  · left
    rw [q1, q2]
    refine ⟨_, List.mem_map_of_mem hy, _, List.mem_map_of_mem hy', fun heq => hne ?_, _, v1 y hy, ?_⟩
    · obtain ⟨e1, e2⟩ := List.append_inj heq rfl
      refine Prod.ext ?_ e2
      obtain ⟨⟨a, b, c, d⟩, _⟩ := y
      obtain ⟨⟨a', b', c', d'⟩, _⟩ := y'
      simp only [Vec.elems, List.cons.injEq, and_true] at e1
      obtain ⟨rfl, rfl, rfl, rfl⟩ := e1
      rfl
    · rw [v2 y' hy', hHy]
  · exact Or.inr ⟨m2 h1, h2⟩

end

/-! ## Merlin -/

/-- blocks with increasing tags can be read back -/
theorem blocks_inj {X : Type} (tag : X → ℕ) {B B' : List (List X)} (k : ℕ) (hl : B.length = B'.length)
    (h : ∀ i (hi : i < B.length), ∀ x ∈ B[i], tag x = k + i) (h' : ∀ i (hi : i < B'.length), ∀ x ∈ B'[i], tag x = k + i)
    (heq : B.flatten = B'.flatten) : B = B' := by
  induction B generalizing B' k with
  | nil => exact (List.length_eq_zero_iff.1 hl.symm).symm
  | cons x B ih =>
    cases B' with
    | nil => simp at hl
    | cons y B' =>
      have step : ∀ (x : List X) (B : List (List X)),
          (∀ i (hi : i < (x :: B).length), ∀ z ∈ (x :: B)[i], tag z = k + i) →
          (x :: B).flatten.filter (fun z => tag z = k) = x ∧ (∀ i (hi : i < B.length), ∀ z ∈ B[i], tag z = k + 1 + i) := by
        intro x B h
        have h1 : ∀ z ∈ x, tag z = k := fun z hz => h 0 (by simp) z hz
        have h2 : ∀ i (hi : i < B.length), ∀ z ∈ B[i], tag z = k + 1 + i := by
          intro i hi z hz
          rw [h (i + 1) (by simpa using hi) z (by simpa using hz)]
          omega
        refine ⟨?_, h2⟩
        rw [List.flatten_cons, List.filter_append, List.filter_eq_self.2 (by simpa using h1), List.filter_eq_nil_iff.2,
          List.append_nil]
        intro z hz
        obtain ⟨l, hl, hz⟩ := List.mem_flatten.1 hz
        obtain ⟨i, hi, rfl⟩ := List.getElem_of_mem hl
        have := h2 i hi z hz
        simp only [decide_eq_true_eq]
        omega
      obtain ⟨a1, a2⟩ := step x B h
      obtain ⟨b1, b2⟩ := step y B' h'
      have hxy : x = y := by rw [← a1, ← b1, heq]
      subst hxy
      rw [List.flatten_cons, List.flatten_cons] at heq
      rw [ih (k + 1) (by simpa using hl) a2 b2 (List.append_cancel_left heq)]

/-- the label of an operation -/
def opLabel : Op → String
  | .append l _ => l
  | .challenge l _ => l

/-- the position of a label in a list of labels -/
def tagIn (ls : List (List String)) (o : Op) : ℕ := ls.findIdx fun l => l.contains (opLabel o)

theorem scalars_inj [NeZero r] {lb : String} {xs ys : List (ZMod r)} (h : stdScalars lb xs = stdScalars lb ys) : xs = ys := by
  refine List.map_injective_iff.2 ?_ h
  intro x y hxy
  exact serField_inj (by simpa using hxy)

theorem points_inj {serG : G → List Byte} (hG : Function.Injective serG) {lb : String} {xs ys : List G}
    (h : stdPoints serG lb xs = stdPoints serG lb ys) : xs = ys := by
  refine List.map_injective_iff.2 ?_ h
  intro x y hxy
  exact hG (by simpa using hxy)

theorem scalars_lb {lb : String} {xs : List (ZMod r)} : ∀ o ∈ stdScalars lb xs, opLabel o = lb := by
  intro o ho
  obtain ⟨x, -, rfl⟩ := List.mem_map.1 ho
  rfl

theorem points_lb {serG : G → List Byte} {lb : String} {xs : List G} : ∀ o ∈ stdPoints serG lb xs, opLabel o = lb := by
  intro o ho
  obtain ⟨x, -, rfl⟩ := List.mem_map.1 ho
  rfl

section
variable {serG : G → List Byte} {serG2 : G2 → List Byte}

/-- the operations of a call, none where it fails -/
def stdEnc (serG : G → List Byte) (serG2 : G2 → List Byte) (c : Call (ZMod r) G G2) : List Op :=
  (stdCall serG serG2 c).getD []

theorem std_calls {l : List (Call (ZMod r) G G2)} {ops : List Op} (h : stdCalls serG serG2 l = some ops) :
    ops = l.flatMap (stdEnc serG serG2) := by
  induction l generalizing ops with
  | nil => cases h; rfl
  | cons c l ih =>
    unfold stdCalls at h
    split at h
    · next a b ha hb =>
      cases h
      rw [List.flatMap_cons, ih hb, stdEnc, ha]
      rfl
    · cases h

/-- the blocks of a key and its inputs after the first operation -/
def keyBlocks (serG : G → List Byte) (serG2 : G2 → List Byte) (h : G2) (v : VKey (ZMod r) G G2) (pi : List (ZMod r)) : List (List Op) :=
  [[.append "domain size" (toLE 8 v.domSize)], [.append "input size" (toLE 8 v.numInputs)], [.append "SRS G2 element" (serG2 h)],
    stdScalars "wire subsets separators" v.k, stdPoints serG "selector commitments" v.selectors,
    stdPoints serG "sigma commitments" v.sigmas, stdScalars "public input" pi]

def keyLabels : List (List String) :=
  [["domain size"], ["input size"], ["SRS G2 element"], ["wire subsets separators"], ["selector commitments"],
    ["sigma commitments"], ["public input"]]

/-- blocks whose labels are given can be read back -/
theorem labels_inj {B B' : List (List Op)} {ls : List (List String)} (hnd : ls.flatten.Nodup)
    (h : List.Forall₂ (fun b l => ∀ o ∈ b, opLabel o ∈ l) B ls) (h' : List.Forall₂ (fun b l => ∀ o ∈ b, opLabel o ∈ l) B' ls)
    (heq : B.flatten = B'.flatten) : B = B' := by
  have key : ∀ {B : List (List Op)}, List.Forall₂ (fun b l => ∀ o ∈ b, opLabel o ∈ l) B ls →
      ∀ i (hi : i < B.length), ∀ o ∈ B[i], tagIn ls o = 0 + i := by
    intro B h i hi o ho
    have hl := h.length_eq
    have h1 : opLabel o ∈ ls[i]'(hl ▸ hi) := (List.forall₂_iff_get.1 h).2 i hi (hl ▸ hi) o ho
    rw [zero_add, tagIn, List.findIdx_eq (hl ▸ hi)]
    refine ⟨by simpa using h1, fun j hj => ?_⟩
    have hjl : j < ls.length := by omega
    rw [List.nodup_flatten] at hnd
    have := List.pairwise_iff_getElem.1 hnd.2 j i hjl (hl ▸ hi) hj
    simp only [List.contains_eq_mem, decide_eq_false_iff_not]
    exact fun hm => this hm h1
  exact blocks_inj (tagIn ls) 0 (h.length_eq.trans h'.length_eq.symm) (key h) (key h') heq

theorem cut {X : Type} (P : X → Bool) {A A' R R' : List X} (hA : ∀ x ∈ A, P x) (hA' : ∀ x ∈ A', P x)
    (hR : ∀ x ∈ R.head?, P x = false) (hR' : ∀ x ∈ R'.head?, P x = false) (h : A ++ R = A' ++ R') : A = A' ∧ R = R' := by
  have key : ∀ {A R : List X}, (∀ x ∈ A, P x) → (∀ x ∈ R.head?, P x = false) → (A ++ R).takeWhile P = A := by
    intro A R hA hR
    rw [List.takeWhile_append_of_pos hA]
    cases R with
    | nil => simp
    | cons y R => simp [hR y rfl]
  have : A = A' := by rw [← key hA hR, ← key hA' hR', h]
  subst this
  exact ⟨rfl, List.append_cancel_left h⟩

theorem std_key {v : VKey (ZMod r) G G2} {g : G2} (hg : v.openKey.powersOfH[1]? = some g) (pi : List (ZMod r)) :
    stdEnc serG serG2 (.vkAndInput v pi) =
      .append "field size in bits" (toLE 4 (bits r)) :: (keyBlocks serG serG2 g v pi).flatten := by
  simp only [stdEnc, stdCall, stdVk, hg, Option.getD_some, keyBlocks, List.flatten_cons, List.flatten_nil, List.append_nil,
    List.cons_append, List.nil_append, List.append_assoc]

theorem key_labels (g : G2) (v : VKey (ZMod r) G G2) (pi : List (ZMod r)) :
    List.Forall₂ (fun b l => ∀ o ∈ b, opLabel o ∈ l) (keyBlocks serG serG2 g v pi) keyLabels := by
  refine .cons ?_ (.cons ?_ (.cons ?_ (.cons ?_ (.cons ?_ (.cons ?_ (.cons ?_ .nil))))))
  · intro o ho; rw [List.mem_singleton.1 ho]; exact List.mem_singleton.2 rfl
  · intro o ho; rw [List.mem_singleton.1 ho]; exact List.mem_singleton.2 rfl
  · intro o ho; rw [List.mem_singleton.1 ho]; exact List.mem_singleton.2 rfl
  · intro o ho; rw [scalars_lb o ho]; exact List.mem_singleton.2 rfl
  · intro o ho; rw [points_lb o ho]; exact List.mem_singleton.2 rfl
  · intro o ho; rw [points_lb o ho]; exact List.mem_singleton.2 rfl
  · intro o ho; rw [scalars_lb o ho]; exact List.mem_singleton.2 rfl

theorem mem_labels {B : List (List Op)} {ls : List (List String)}
    (h : List.Forall₂ (fun b l => ∀ o ∈ b, opLabel o ∈ l) B ls) : ∀ o ∈ B.flatten, opLabel o ∈ ls.flatten := by
  induction h with
  | nil => intro o ho; cases ho
  | cons h1 _ ih =>
    intro o ho
    rw [List.flatten_cons] at ho ⊢
    rcases List.mem_append.1 ho with ho | ho
    · exact List.mem_append_left _ (h1 o ho)
    · exact List.mem_append_right _ (ih o ho)

theorem std_keys_inj [NeZero r] (hG : Function.Injective serG) (hG2 : Function.Injective serG2)
    {vks vks' : List (VKey (ZMod r) G G2)} {pis pis' : List (List (ZMod r))} (hl : vks.length = pis.length)
    (hl' : vks'.length = pis'.length) (hu : ∀ v ∈ vks, Usable v) (hu' : ∀ v ∈ vks', Usable v)
    (h : (vks.zip pis).flatMap (fun x => stdEnc serG serG2 (.vkAndInput x.1 x.2)) =
      (vks'.zip pis').flatMap (fun x => stdEnc serG serG2 (.vkAndInput x.1 x.2))) :
    List.Forall₂ KeyEq vks vks' ∧ pis = pis' := by
  have hd : ∀ (vks : List (VKey (ZMod r) G G2)) (pis : List (List (ZMod r))), (∀ v ∈ vks, Usable v) →
      ∀ o ∈ ((vks.zip pis).flatMap (fun x => stdEnc serG serG2 (.vkAndInput x.1 x.2))).head?,
        (decide (opLabel o ≠ "field size in bits")) = false := by
    intro vks pis hu o ho
    match vks, pis, hu with
    | [], _, _ => simp at ho
    | _ :: _, [], _ => simp at ho
    | v :: vks, p :: pis, hu =>
      obtain ⟨g, hg⟩ := Option.isSome_iff_exists.1 (hu v List.mem_cons_self).srs
      rw [List.zip_cons_cons, List.flatMap_cons, std_key hg] at ho
      simp only [List.cons_append, List.head?_cons, Option.mem_some_iff] at ho
      rw [← ho]
      rfl
  induction vks generalizing pis vks' pis' with
  | nil =>
    obtain rfl : pis = [] := List.length_eq_zero_iff.1 hl.symm
    match vks', pis', hl', hu' with
    | [], [], _, _ => exact ⟨.nil, rfl⟩
    | v :: vks', p :: pis', _, hu' =>
      obtain ⟨g, hg⟩ := Option.isSome_iff_exists.1 (hu' v List.mem_cons_self).srs
      rw [List.zip_cons_cons, List.flatMap_cons, std_key hg] at h
      cases h
  | cons v vks ih =>
    match pis, vks', pis', hl, hl', hu' with
    | p :: pis, [], [], hl, _, _ =>
      obtain ⟨g, hg⟩ := Option.isSome_iff_exists.1 (hu v List.mem_cons_self).srs
      rw [List.zip_cons_cons, List.flatMap_cons, std_key hg] at h
      cases h
    | p :: pis, v' :: vks', p' :: pis', hl, hl', hu' =>
      have uv := hu v List.mem_cons_self
      have uv' := hu' v' List.mem_cons_self
      have ur : ∀ w ∈ vks, Usable w := fun w hw => hu w (List.mem_cons_of_mem _ hw)
      have ur' : ∀ w ∈ vks', Usable w := fun w hw => hu' w (List.mem_cons_of_mem _ hw)
      obtain ⟨g, hg⟩ := Option.isSome_iff_exists.1 uv.srs
      obtain ⟨g', hg'⟩ := Option.isSome_iff_exists.1 uv'.srs
      simp only [List.zip_cons_cons, List.flatMap_cons, std_key hg, std_key hg', List.cons_append, List.cons.injEq, true_and] at h
      have hno : ∀ (g : G2) (v : VKey (ZMod r) G G2) (p : List (ZMod r)), ∀ o ∈ (keyBlocks serG serG2 g v p).flatten,
          decide (opLabel o ≠ "field size in bits") = true := by
        intro g v p o ho
        have := mem_labels (key_labels g v p) o ho
        rw [decide_eq_true_iff]
        intro hh
        rw [hh] at this
        revert this
        decide
      obtain ⟨h1, h2⟩ := cut (fun o => decide (opLabel o ≠ "field size in bits")) (hno g v p) (hno g' v' p') (hd vks pis ur)
        (hd vks' pis' ur') h
      have h3 := labels_inj (by decide) (key_labels g v p) (key_labels g' v' p') h1
      simp only [keyBlocks, List.cons.injEq, Op.append.injEq, true_and, and_true] at h3
      obtain ⟨a1, a2, a3, a4, a5, a6, a7⟩ := h3
      obtain ⟨b1, b2⟩ := ih (by simpa using hl) (by simpa using hl') ur ur' h2
      refine ⟨.cons ⟨toLE_inj (lt_usize uv.domSize) (lt_usize uv'.domSize) a1,
        toLE_inj (lt_usize uv.numInputs) (lt_usize uv'.numInputs) a2, by rw [hg, hg', hG2 a3], scalars_inj a4, points_inj hG a5,
        points_inj hG a6⟩ b1, by rw [scalars_inj a7, b2]⟩

theorem std_evals_inj [NeZero r] {es es' : List (Evals (ZMod r))}
    (h : es.flatMap (fun e => stdEnc serG serG2 (.evals e)) = es'.flatMap (fun e => stdEnc serG serG2 (.evals e))) : es = es' := by
  have he : ∀ e : Evals (ZMod r), stdEnc serG serG2 (.evals e : Call (ZMod r) G G2) =
      [stdScalars "wire_evals" e.wires, stdScalars "wire_sigma_evals" e.sigmas].flatten ++
        [.append "perm_next_eval" (serField e.permNext)] := by
    intro e
    simp only [stdEnc, stdCall, Option.getD_some, List.flatten_cons, List.flatten_nil, List.append_nil]
  have hlab : ∀ e : Evals (ZMod r), List.Forall₂ (fun b l => ∀ o ∈ b, opLabel o ∈ l)
      [stdScalars "wire_evals" e.wires, stdScalars "wire_sigma_evals" e.sigmas] [["wire_evals"], ["wire_sigma_evals"]] := by
    intro e
    refine .cons ?_ (.cons ?_ .nil) <;> intro o ho <;> rw [scalars_lb o ho] <;> exact List.mem_singleton.2 rfl
  have hno : ∀ e : Evals (ZMod r), ∀ o ∈ [stdScalars "wire_evals" e.wires, stdScalars "wire_sigma_evals" e.sigmas].flatten,
      decide (opLabel o ≠ "perm_next_eval") = true := by
    intro e o ho
    have := mem_labels (hlab e) o ho
    rw [decide_eq_true_iff]
    intro hh
    rw [hh] at this
    revert this
    decide
  induction es generalizing es' with
  | nil =>
    cases es' with
    | nil => rfl
    | cons e es' =>
      rw [List.flatMap_cons, he] at h
      simp at h
  | cons e es ih =>
    cases es' with
    | nil =>
      rw [List.flatMap_cons, he] at h
      simp at h
    | cons e' es' =>
      rw [List.flatMap_cons, List.flatMap_cons, he, he, List.append_assoc, List.append_assoc] at h
      obtain ⟨h1, h2⟩ := cut (fun o => decide (opLabel o ≠ "perm_next_eval")) (hno e) (hno e')
        (by simp [opLabel]) (by simp [opLabel]) h
      have h3 := labels_inj (by decide) (hlab e) (hlab e') h1
      simp only [List.cons.injEq, and_true] at h3
      simp only [List.cons_append, List.nil_append, List.cons.injEq, Op.append.injEq, true_and] at h2
      obtain ⟨w, s, n⟩ := e
      obtain ⟨w', s', n'⟩ := e'
      rw [ih h2.2]
      congr
      · exact scalars_inj h3.1
      · exact scalars_inj h3.2
      · exact serField_inj h2.1

/-- the operations of the verifier, block by block -/
def stdBlocks (serG : G → List Byte) (serG2 : G2 → List Byte) (e : Option (List ℕ)) (vks : List (VKey (ZMod r) G G2))
    (pis : List (List (ZMod r))) (b : BProof (ZMod r) G) : List (List Op) :=
  [e.toList.map (fun m => .append "extra info" (toBytes m)),
    (vks.zip pis).flatMap (fun x => stdEnc serG serG2 (.vkAndInput x.1 x.2)),
    stdPoints serG "witness_poly_comms" b.wires.flatten,
    if vks.any (·.lookup.isSome) then [.challenge "tau" 64] else [],
    stdPoints serG "h_poly_comms" (b.lks.flatMap (·.h)), [.challenge "beta" 64], [.challenge "gamma" 64],
    stdPoints serG "perm_poly_comms" b.prodPerm, stdPoints serG "plookup_poly_comms" (b.lks.map (·.prod)),
    [.challenge "alpha" 64], stdPoints serG "quot_poly_comms" b.quot, [.challenge "zeta" 64],
    b.evals.flatMap (fun e => stdEnc serG serG2 (.evals e : Call (ZMod r) G G2)),
    b.lks.flatMap (fun l => stdEnc serG serG2 (.lkEvals l.evals : Call (ZMod r) G G2)), [.challenge "v" 64],
    [.append "open_proof" (serG b.opening)], [.append "shifted_open_proof" (serG b.shifted)], [.challenge "u" 64]]

def blockLabels : List (List String) :=
  [["extra info"], "field size in bits" :: keyLabels.flatten, ["witness_poly_comms"], ["tau"], ["h_poly_comms"], ["beta"],
    ["gamma"], ["perm_poly_comms"], ["plookup_poly_comms"], ["alpha"], ["quot_poly_comms"], ["zeta"],
    ["wire_evals", "wire_sigma_evals", "perm_next_eval"], ["plookup_evals", "plookup_next_evals"], ["v"], ["open_proof"],
    ["shifted_open_proof"], ["u"]]

theorem flatMap_lookups {X : Type} (ls : List (Option (LkProof (ZMod r) G))) (g : LkProof (ZMod r) G → X) (k : X → List Op) :
    (ls.filterMap (·.map g)).flatMap k = (ls.filterMap id).flatMap fun l => k (g l) := by
  induction ls with
  | nil => rfl
  | cons x ls ih =>
    cases x with
    | none => exact ih
    | some x =>
      simp only [List.filterMap_cons, Option.map_some, List.flatMap_cons, ih, id_eq]

theorem std_blocks (e : Option (List ℕ)) (vks : List (VKey (ZMod r) G G2)) (pis : List (List (ZMod r))) (b : BProof (ZMod r) G) :
    (verifierCalls e vks pis b).flatMap (stdEnc serG serG2) = (stdBlocks serG serG2 e vks pis b).flatten := by
  have h1 : (extraMsg e : List (Call (ZMod r) G G2)).flatMap (stdEnc serG serG2) =
      e.toList.map (fun m => Op.append "extra info" (toBytes m)) := by
    cases e <;> rfl
  have h2 : ((vks.zip pis).map (fun x => (.vkAndInput x.1 x.2 : Call (ZMod r) G G2))).flatMap (stdEnc serG serG2) =
      (vks.zip pis).flatMap (fun x => stdEnc serG serG2 (.vkAndInput x.1 x.2)) := by rw [List.flatMap_map]
  have h3 : (b.wires.map (fun x => (.commitments "witness_poly_comms" x : Call (ZMod r) G G2))).flatMap (stdEnc serG serG2) =
      stdPoints serG "witness_poly_comms" b.wires.flatten := by
    rw [List.flatMap_map, stdPoints, List.map_flatten, List.flatMap]
    rfl
  have h4 : (if vks.any (·.lookup.isSome) then [(.challenge "tau" : Call (ZMod r) G G2)] else []).flatMap (stdEnc serG serG2) =
      if vks.any (·.lookup.isSome) then [Op.challenge "tau" 64] else [] := by
    split <;> rfl
  have h5 : (b.lookups.filterMap (·.map (fun l => (.commitments "h_poly_comms" l.h : Call (ZMod r) G G2)))).flatMap
      (stdEnc serG serG2) = stdPoints serG "h_poly_comms" (b.lks.flatMap (·.h)) := by
    rw [flatMap_lookups, stdPoints, List.map_flatMap]
    rfl
  have h6 : (b.prodPerm.map (fun c => (.commitment "perm_poly_comms" c : Call (ZMod r) G G2))).flatMap (stdEnc serG serG2) =
      stdPoints serG "perm_poly_comms" b.prodPerm := by
    rw [List.flatMap_map, stdPoints, ← List.flatMap_singleton' (List.map _ _), List.flatMap_map]
    rfl
  have h7 : (b.lookups.filterMap (·.map (fun l => (.commitment "plookup_poly_comms" l.prod : Call (ZMod r) G G2)))).flatMap
      (stdEnc serG serG2) = stdPoints serG "plookup_poly_comms" (b.lks.map (·.prod)) := by
    rw [flatMap_lookups, stdPoints, ← List.flatMap_singleton' (List.map _ (b.lks.map _)), List.flatMap_map, List.flatMap_map]
    rfl
  have h8 : (b.evals.map (fun e => (.evals e : Call (ZMod r) G G2))).flatMap (stdEnc serG serG2) =
      b.evals.flatMap (fun e => stdEnc serG serG2 (.evals e : Call (ZMod r) G G2)) := by rw [List.flatMap_map]
  have h9 : (b.lookups.filterMap (·.map (fun l => (.lkEvals l.evals : Call (ZMod r) G G2)))).flatMap
      (stdEnc serG serG2) = b.lks.flatMap (fun l => stdEnc serG serG2 (.lkEvals l.evals : Call (ZMod r) G G2)) := by
    rw [flatMap_lookups]
    rfl
  have hc : ∀ lb, [(.challenge lb : Call (ZMod r) G G2)].flatMap (stdEnc serG serG2) = [Op.challenge lb 64] := fun _ => rfl
  have hq : [(.commitments "quot_poly_comms" b.quot : Call (ZMod r) G G2)].flatMap (stdEnc serG serG2) =
      stdPoints serG "quot_poly_comms" b.quot := by
    rw [List.flatMap_singleton]
    rfl
  have ho : [.commitment "open_proof" b.opening, (.commitment "shifted_open_proof" b.shifted : Call (ZMod r) G G2)].flatMap
      (stdEnc serG serG2) = [Op.append "open_proof" (serG b.opening)] ++ [.append "shifted_open_proof" (serG b.shifted)] := rfl
  unfold verifierCalls stdBlocks
  simp only [List.flatMap_append, h1, h2, h3, h4, h5, h6, h7, h8, h9, hc, hq, ho, List.flatten_cons, List.flatten_nil,
    List.append_assoc, List.append_nil]

theorem std_labels {e : Option (List ℕ)} {vks : List (VKey (ZMod r) G G2)} (hu : ∀ v ∈ vks, Usable v) (pis : List (List (ZMod r)))
    (b : BProof (ZMod r) G) :
    List.Forall₂ (fun b l => ∀ o ∈ b, opLabel o ∈ l) (stdBlocks serG serG2 e vks pis b) blockLabels := by
  have hp : ∀ (lb : String) (xs : List G), ∀ o ∈ stdPoints serG lb xs, opLabel o ∈ [lb] := by
    intro lb xs o ho
    rw [points_lb o ho]
    exact List.mem_singleton.2 rfl
  have hs : ∀ (x : Op), ∀ o ∈ [x], opLabel o ∈ [opLabel x] := by
    intro x o ho
    rw [List.mem_singleton.1 ho]
    exact List.mem_singleton.2 rfl
  refine .cons ?_ (.cons ?_ (.cons (hp _ _) (.cons ?_ (.cons (hp _ _) (.cons (hs _) (.cons (hs _) (.cons (hp _ _) (.cons (hp _ _)
    (.cons (hs _) (.cons (hp _ _) (.cons (hs _) (.cons ?_ (.cons ?_ (.cons (hs _) (.cons (hs _) (.cons (hs _)
    (.cons (hs _) .nil)))))))))))))))))
  · intro o ho
    obtain ⟨m, -, rfl⟩ := List.mem_map.1 ho
    exact List.mem_singleton.2 rfl
  · intro o ho
    obtain ⟨x, hx, ho⟩ := List.mem_flatMap.1 ho
    obtain ⟨g, hg⟩ := Option.isSome_iff_exists.1 (hu x.1 (List.of_mem_zip (a := x.1) (b := x.2) hx).1).srs
    rw [std_key hg] at ho
    rcases List.mem_cons.1 ho with rfl | ho
    · exact List.mem_cons_self
    · exact List.mem_cons_of_mem _ (mem_labels (key_labels g x.1 x.2) o ho)
  · intro o ho
    split at ho
    · exact hs _ o ho
    · cases ho
  · intro o ho
    obtain ⟨x, -, ho⟩ := List.mem_flatMap.1 ho
    simp only [stdEnc, stdCall, Option.getD_some, List.mem_append] at ho
    rcases ho with (ho | ho) | ho
    · rw [scalars_lb o ho]; decide
    · rw [scalars_lb o ho]; decide
    · rw [List.mem_singleton.1 ho]; exact List.mem_cons_of_mem _ (List.mem_cons_of_mem _ List.mem_cons_self)
  · intro o ho
    obtain ⟨x, -, ho⟩ := List.mem_flatMap.1 ho
    simp only [stdEnc, stdCall, Option.getD_some, List.mem_append] at ho
    rcases ho with ho | ho
    · rw [scalars_lb o ho]; decide
    · rw [scalars_lb o ho]; decide

theorem toBytes_toList {e e' : Option (List ℕ)}
    (h : e.toList.map (fun m => Op.append "extra info" (toBytes m)) = e'.toList.map (fun m => Op.append "extra info" (toBytes m))) :
    e.map toBytes = e'.map toBytes := by
  cases e <;> cases e' <;> simp_all

/-- **C82, Merlin.** Two runs of the verifier that make the same operations on the `merlin` transcript, without any
assumption on the shapes of keys and proofs: same message, same number of keys and instances, keys that agree on
everything but the commitments of the lookup argument (and the flag for merged keys), same inputs, and proofs that agree
up to the boundaries between the wire commitments of the instances and between the sorted vectors of the instances. -/
theorem C82_standard_partial [NeZero r] (hG : Function.Injective serG) (hG2 : Function.Injective serG2)
    {e e' : Option (List ℕ)} {vks vks' : List (VKey (ZMod r) G G2)} {pis pis' : List (List (ZMod r))} {b b' : BProof (ZMod r) G}
    (hl : vks.length = pis.length) (hl' : vks'.length = pis'.length) (hu : ∀ v ∈ vks, Usable v) (hu' : ∀ v ∈ vks', Usable v)
    {ops : List Op} (h : stdCalls serG serG2 (verifierCalls e vks pis b) = some ops)
    (h' : stdCalls serG serG2 (verifierCalls e' vks' pis' b') = some ops) :
    e.map toBytes = e'.map toBytes ∧ List.Forall₂ KeyEq vks vks' ∧ pis = pis' ∧ ProofEq b b' ∧ b.evals = b'.evals ∧
      vks.any (·.lookup.isSome) = vks'.any (·.lookup.isSome) := by
  have heq := (std_calls h).symm.trans (std_calls h')
  rw [std_blocks, std_blocks] at heq
  have h1 := labels_inj (by decide) (std_labels hu pis b) (std_labels hu' pis' b') heq
  simp only [stdBlocks, List.cons.injEq, and_true, true_and, Op.append.injEq] at h1
  obtain ⟨a0, a1, a2, a3, a4, a7, a8, a10, a12, a13, a15, a16⟩ := h1
  obtain ⟨k1, k2⟩ := std_keys_inj hG hG2 hl hl' hu hu' a1
  have ev := std_evals_inj a12
  have pl := points_inj hG a8
  have hlen : b.lks.length = b'.lks.length := by simpa using congrArg List.length pl
  have lk : b.lks.map (·.evals) = b'.lks.map (·.evals) := by
    refine lkFlat_inj hlen ?_
    have hf : ∀ l : List (LkProof (ZMod r) G), (l.flatMap (fun l => stdEnc serG serG2 (.lkEvals l.evals : Call (ZMod r) G G2))).map
        (fun o => match o with | .append _ b => b | .challenge _ _ => []) = (l.flatMap (fun l => l.evals.all)).map serField := by
      intro l
      rw [List.map_flatMap, List.map_flatMap]
      congr
    have := congrArg (List.map (fun o : Op => match o with | .append _ b => b | .challenge _ _ => [])) a13
    rw [hf, hf] at this
    exact List.map_injective_iff.2 serField_inj this
  refine ⟨toBytes_toList a0, k1, k2, ⟨points_inj hG a2, points_inj hG a4, points_inj hG a7, pl, points_inj hG a10, by rw [ev], lk,
    hG a15, hG a16⟩, ev, ?_⟩
  revert a3
  cases vks.any (·.lookup.isSome) <;> cases vks'.any (·.lookup.isSome) <;> simp

end

/-! ## Shapes -/

/-- the same lengths everywhere in two proofs -/
structure SameProofShape {F : Type} (b b' : BProof F G) : Prop where
  wires : b.wires.map List.length = b'.wires.map List.length
  lookups : b.lookups.map (·.map (·.h.length)) = b'.lookups.map (·.map (·.h.length))
  evals : b.evals.map (fun e => (e.wires.length, e.sigmas.length)) = b'.evals.map (fun e => (e.wires.length, e.sigmas.length))

theorem flatten_inj {X : Type} {l l' : List (List X)} (h : l.map List.length = l'.map List.length)
    (heq : l.flatten = l'.flatten) : l = l' := by
  induction l generalizing l' with
  | nil => cases l' with
    | nil => rfl
    | cons y l' => simp at h
  | cons x l ih => cases l' with
    | nil => simp at h
    | cons y l' =>
      simp only [List.map_cons, List.cons.injEq] at h
      rw [List.flatten_cons, List.flatten_cons] at heq
      obtain ⟨h1, h2⟩ := List.append_inj heq h.1
      rw [h1, ih h.2 h2]

theorem evals_inj {F : Type} {l l' : List (Evals F)}
    (h : l.map (fun e => (e.wires.length, e.sigmas.length)) = l'.map (fun e => (e.wires.length, e.sigmas.length)))
    (heq : l.flatMap Evals.all = l'.flatMap Evals.all) : l = l' := by
  induction l generalizing l' with
  | nil => cases l' with
    | nil => rfl
    | cons y l' => simp at h
  | cons x l ih => cases l' with
    | nil => simp at h
    | cons y l' =>
      simp only [List.map_cons, List.cons.injEq, Prod.mk.injEq] at h
      rw [List.flatMap_cons, List.flatMap_cons, Evals.all, Evals.all, List.append_assoc, List.append_assoc, List.append_assoc,
        List.append_assoc] at heq
      obtain ⟨h1, h2⟩ := List.append_inj heq h.1.1
      obtain ⟨h3, h4⟩ := List.append_inj h2 h.1.2
      simp only [List.cons_append, List.nil_append, List.cons.injEq] at h4
      rw [ih h.2 h4.2]
      cases x
      cases y
      simp only at h1 h3 h4
      rw [h1, h3, h4.1]

theorem lookups_inj {F : Type} {l l' : List (Option (LkProof F G))}
    (h : l.map (·.map (·.h.length)) = l'.map (·.map (·.h.length)))
    (h1 : (l.filterMap id).flatMap (·.h) = (l'.filterMap id).flatMap (·.h))
    (h2 : (l.filterMap id).map (·.prod) = (l'.filterMap id).map (·.prod))
    (h3 : (l.filterMap id).map (·.evals) = (l'.filterMap id).map (·.evals)) : l = l' := by
  induction l generalizing l' with
  | nil => cases l' with
    | nil => rfl
    | cons y l' => simp at h
  | cons x l ih => cases l' with
    | nil => simp at h
    | cons y l' =>
      simp only [List.map_cons, List.cons.injEq] at h
      cases x with
      | none =>
        cases y with
        | none => rw [ih h.2 h1 h2 h3]
        | some y => simp at h
      | some x =>
        cases y with
        | none => simp at h
        | some y =>
          simp only [Option.map_some, Option.some.injEq] at h
          simp only [List.filterMap_cons, id_eq, List.flatMap_cons, List.map_cons, List.cons.injEq] at h1 h2 h3
          obtain ⟨a1, a2⟩ := List.append_inj h1 h.1
          rw [ih h.2 a2 h2.2 h3.2]
          cases x
          cases y
          simp only at a1 h2 h3
          rw [a1, h2.1, h3.1]

/-- **C82, proofs.** With the same lengths the proofs are equal. -/
theorem C82_proof {F : Type} {b b' : BProof F G} (h : ProofEq b b') (hs : SameProofShape b b') : b = b' := by
  have h1 := flatten_inj hs.wires h.wires
  have h2 := evals_inj hs.evals h.evals
  have h3 := lookups_inj hs.lookups h.sorted h.prodLookup h.evalsLookup
  have h4 := h.prodPerm
  have h5 := h.quot
  have h6 := h.opening
  have h7 := h.shifted
  clear h hs
  cases b
  cases b'
  simp only at h1 h2 h3 h4 h5 h6 h7
  rw [h1, h2, h3, h4, h5, h6, h7]

/-! ## What is not bound -/

section
variable {F : Type}

/-- the challenges do not change if some calls are replaced by others with the same effect -/
def Effect (O : List (Call F G G2) → F) (l l' : List (Call F G G2)) : Prop := ∀ A C, O (A ++ (l ++ C)) = O (A ++ (l' ++ C))

theorem challenges_congr {O : List (Call F G G2) → F} {e : Option (List ℕ)} {vks vks' : List (VKey F G G2)} {pis : List (List F)}
    {b b' : BProof F G} (hv : Effect O ((vks.zip pis).map (fun x => .vkAndInput x.1 x.2))
      ((vks'.zip pis).map (fun x => .vkAndInput x.1 x.2)))
    (hL : vks.any (·.lookup.isSome) = vks'.any (·.lookup.isSome))
    (hw : Effect O (b.wires.map (.commitments "witness_poly_comms" ·)) (b'.wires.map (.commitments "witness_poly_comms" ·)))
    (hb : b' = { b with wires := b'.wires }) : challenges O e vks pis b = challenges O e vks' pis b' := by
  rw [hb]
  have h1 : ∀ C, O (extraMsg e ++ ((vks.zip pis).map (fun x => .vkAndInput x.1 x.2) ++
      (b.wires.map (.commitments "witness_poly_comms" ·) ++ C))) = O (extraMsg e ++ ((vks'.zip pis).map (fun x => .vkAndInput x.1 x.2) ++
      (b'.wires.map (.commitments "witness_poly_comms" ·) ++ C))) := by
    intro C
    rw [hv, ← List.append_assoc, hw, List.append_assoc]
  unfold challenges askTau ask
  rw [← hL]
  split <;> simp only [List.append_assoc, h1]

end

section
variable {xy te : G → Option (ZMod q × ZMod q)} {f : Vec (ZMod q) → Vec (ZMod q)} {serG : G → List Byte} {serG2 : G2 → List Byte}
  {H : List Byte → List Byte} {M : List Op → List Byte}

theorem std_effect {l l' : List (Call (ZMod r) G G2)} (h : stdCalls serG serG2 l = stdCalls serG serG2 l') :
    Effect (stdOracle serG serG2 M) l l' := by
  have happ : ∀ a b : List (Call (ZMod r) G G2), stdCalls serG serG2 (a ++ b) =
      match stdCalls serG serG2 a, stdCalls serG serG2 b with
      | some x, some y => some (x ++ y)
      | _, _ => none := by
    intro a b
    induction a with
    | nil => cases hb : stdCalls serG serG2 b <;> simp [stdCalls, hb]
    | cons c a ih =>
      simp only [List.cons_append, stdCalls, ih]
      cases stdCall serG serG2 c <;> cases stdCalls serG serG2 a <;> cases stdCalls serG serG2 b <;> simp
  intro A C
  unfold stdOracle
  rw [happ, happ l, h, ← happ l', ← happ]

theorem sol_effect {l l' : List (Call (ZMod r) G G2)}
    (h : ∀ s, STr.calls xy serG2 H s l = STr.calls xy serG2 H s l') : Effect (solOracle xy serG2 H) l l' := by
  have happ : ∀ (a b : List (Call (ZMod r) G G2)) s, STr.calls xy serG2 H s (a ++ b) =
      (STr.calls xy serG2 H s a).bind fun s => STr.calls xy serG2 H s b := by
    intro a b
    induction a with
    | nil => intro s; rfl
    | cons c a ih =>
      intro s
      simp only [List.cons_append, STr.calls]
      cases STr.call xy serG2 H s c with
      | none => rfl
      | some s => exact ih s
  intro A C
  unfold solOracle
  have : STr.calls xy serG2 H ([], STr.new) (A ++ (l ++ C)) = STr.calls xy serG2 H ([], STr.new) (A ++ (l' ++ C)) := by
    rw [happ, happ A]
    congr
    funext s
    rw [happ, h, ← happ]
  rw [this]

theorem res_effect {l l' : List (Call (ZMod r) G G2)}
    (h : ∀ s, RTr.calls te f s l = RTr.calls te f s l') : Effect (rescueOracle te f) l l' := by
  have happ : ∀ (a b : List (Call (ZMod r) G G2)) s, RTr.calls te f s (a ++ b) =
      match RTr.calls te f s a with
      | .error e => .error e
      | .ok s => RTr.calls te f s b := by
    intro a b
    induction a with
    | nil => intro s; rfl
    | cons c a ih =>
      intro s
      simp only [List.cons_append, RTr.calls]
      cases RTr.call te f s c with
      | error e => rfl
      | ok s => exact ih s
  intro A C
  unfold rescueOracle
  have : RTr.calls te f ([], RTr.new q) (A ++ (l ++ C)) = RTr.calls te f ([], RTr.new q) (A ++ (l' ++ C)) := by
    rw [happ, happ A]
    cases RTr.calls te f ([], RTr.new q) A with
    | error e => rfl
    | ok s =>
      simp only
      rw [happ, h, ← happ]
  rw [this]

/-- **C82, not bound.** For all three transcripts the challenges depend on a key only through the parts it absorbs and
through whether the key is for lookups: the commitments to the lookup tables and selectors, the flag for merged keys and
the other powers of the reference string do not matter. For Rescue, moreover, neither the domain size, nor the number of
inputs, nor the separators `k`, nor any part of the reference string matters. -/
theorem C82_not_bound {vks vks' : List (VKey (ZMod r) G G2)} (hL : List.Forall₂ (fun v v' => v.lookup.isSome = v'.lookup.isSome) vks vks')
    (e : Option (List ℕ)) (pis : List (List (ZMod r))) (b : BProof (ZMod r) G) :
    (List.Forall₂ KeyEq vks vks' →
      challenges (stdOracle serG serG2 M) e vks pis b = challenges (stdOracle serG serG2 M) e vks' pis b ∧
      challenges (solOracle xy serG2 H) e vks pis b = challenges (solOracle xy serG2 H) e vks' pis b) ∧
    (List.Forall₂ (fun v v' => v.selectors = v'.selectors ∧ v.sigmas = v'.sigmas) vks vks' →
      challenges (rescueOracle te f) e vks pis b = challenges (rescueOracle te f) e vks' pis b) := by
  have hl := any_isSome hL
  refine ⟨fun hk => ⟨?_, ?_⟩, fun hk => ?_⟩
  · refine challenges_congr (std_effect ?_) hl (fun _ _ => rfl) rfl
    clear hL hl
    induction hk generalizing pis with
    | nil => rfl
    | @cons v v' vs vs' h1 _ ih =>
      cases pis with
      | nil => rfl
      | cons p pis =>
        have : stdCall serG serG2 (.vkAndInput v p) = stdCall serG serG2 (.vkAndInput v' p) := by
          simp only [stdCall, stdVk, h1.srs, h1.domSize, h1.numInputs, h1.k, h1.selectors, h1.sigmas]
        simp only [List.zip_cons_cons, List.map_cons, stdCalls, this, ih]
  · refine challenges_congr (sol_effect ?_) hl (fun _ _ => rfl) rfl
    clear hL hl
    induction hk generalizing pis with
    | nil => intro s; rfl
    | @cons v v' vs vs' h1 _ ih =>
      intro s
      cases pis with
      | nil => rfl
      | cons p pis =>
        have : STr.call xy serG2 H s (.vkAndInput v p) = STr.call xy serG2 H s (.vkAndInput v' p) := by
          simp only [STr.call, STr.vkAndInput, h1.srs, h1.domSize, h1.numInputs, h1.k, h1.selectors, h1.sigmas]
        simp only [List.zip_cons_cons, List.map_cons, STr.calls, this, ih]
  · refine challenges_congr (res_effect ?_) hl (fun _ _ => rfl) rfl
    clear hL hl
    induction hk generalizing pis with
    | nil => intro s; rfl
    | @cons v v' vs vs' h1 _ ih =>
      intro s
      cases pis with
      | nil => rfl
      | cons p pis =>
        have : RTr.call te f s (.vkAndInput v p) = RTr.call te f s (.vkAndInput v' p) := by
          simp only [RTr.call, RTr.vkAndInput, h1.1, h1.2]
        simp only [List.zip_cons_cons, List.map_cons, RTr.calls, this, ih]

/-- **C82, boundaries.** For all three transcripts the challenges do not depend on which wire commitment belongs to which
instance of a batch proof. -/
theorem C82_boundaries {b b' : BProof (ZMod r) G} (hw : b.wires.flatten = b'.wires.flatten) (hb : b' = { b with wires := b'.wires })
    (e : Option (List ℕ)) (vks : List (VKey (ZMod r) G G2)) (pis : List (List (ZMod r))) :
    challenges (stdOracle serG serG2 M) e vks pis b = challenges (stdOracle serG serG2 M) e vks pis b' ∧
    challenges (solOracle xy serG2 H) e vks pis b = challenges (solOracle xy serG2 H) e vks pis b' ∧
    challenges (rescueOracle te f) e vks pis b = challenges (rescueOracle te f) e vks pis b' := by
  refine ⟨challenges_congr (fun _ _ => rfl) rfl (std_effect ?_) hb, challenges_congr (fun _ _ => rfl) rfl (sol_effect ?_) hb,
    challenges_congr (fun _ _ => rfl) rfl (res_effect ?_) hb⟩
  · have key : ∀ w : List (List G), stdCalls serG serG2 (w.map (fun x => (.commitments "witness_poly_comms" x : Call (ZMod r) G G2))) =
        some (stdPoints serG "witness_poly_comms" w.flatten) := by
      intro w
      induction w with
      | nil => rfl
      | cons x w ih =>
        simp only [List.map_cons, stdCalls, stdCall, ih, List.flatten_cons, stdPoints, List.map_append]
    rw [key, key, hw]
  · have key : ∀ (w : List (List G)) (s : List (ZMod r) × STr),
        STr.calls xy serG2 H s (w.map (fun x => (.commitments "witness_poly_comms" x : Call (ZMod r) G G2))) =
        some (s.1, s.2.points xy w.flatten) := by
      intro w
      induction w with
      | nil => intro s; simp [STr.calls, STr.points, STr.push]
      | cons x w ih =>
        intro s
        simp only [List.map_cons, STr.calls, STr.call, ih, List.flatten_cons, STr.points, STr.push, List.flatMap_append,
          List.append_assoc]
    intro s
    rw [key, key, hw]
  · have happ : ∀ (a c : List G) (t : RTr q), t.commitments te (a ++ c) =
        match t.commitments te a with
        | .error e => .error e
        | .ok t => t.commitments te c := by
      intro a c
      induction a with
      | nil => intro t; rfl
      | cons x a ih =>
        intro t
        simp only [List.cons_append, RTr.commitments]
        cases t.commitment te x with
        | error e => rfl
        | ok t => exact ih t
    have key : ∀ (w : List (List G)) (s : List (ZMod r) × RTr q),
        RTr.calls te f s (w.map (fun x => (.commitments "witness_poly_comms" x : Call (ZMod r) G G2))) =
        (s.2.commitments te w.flatten).map (s.1, ·) := by
      intro w
      induction w with
      | nil => intro s; rfl
      | cons x w ih =>
        intro s
        simp only [List.map_cons, RTr.calls, RTr.call, List.flatten_cons, happ]
        cases s.2.commitments te x with
        | error e => rfl
        | ok t => exact ih (s.1, t)
    intro s
    rw [key, key, hw]

/-- **C82, Rescue counterexample.** Keys with different domain sizes, numbers of inputs, separators and reference strings
and the same challenges, for every permutation, proof and input. -/
theorem C82_rescue_counterexample (v : VKey (ZMod r) G G2) (d n : ℕ) (k : List (ZMod r)) (o : Pcs.VerifierParam G G2)
    (e : Option (List ℕ)) (pis : List (List (ZMod r))) (b : BProof (ZMod r) G) :
    challenges (rescueOracle te f) e [v] pis b =
      challenges (rescueOracle te f) e [{ v with domSize := d, numInputs := n, k := k, openKey := o }] pis b :=
  (C82_not_bound (xy := te) (te := te) (f := f) (serG := fun _ => []) (serG2 := fun _ => []) (H := id) (M := fun _ => [])
    (vks := [v]) (vks' := [{ v with domSize := d, numInputs := n, k := k, openKey := o }]) (.cons rfl .nil) e pis b).2
    (.cons ⟨rfl, rfl⟩ .nil)

/-- **C82, lookup counterexample.** The commitments to the lookup tables can be exchanged without effect on the challenges
of any of the three transcripts. -/
theorem C82_lookup_counterexample (v : VKey (ZMod r) G G2) (l l' : LkVk G) (e : Option (List ℕ)) (pis : List (List (ZMod r)))
    (b : BProof (ZMod r) G) :
    challenges (stdOracle serG serG2 M) e [{ v with lookup := some l }] pis b =
      challenges (stdOracle serG serG2 M) e [{ v with lookup := some l' }] pis b ∧
    challenges (solOracle xy serG2 H) e [{ v with lookup := some l }] pis b =
      challenges (solOracle xy serG2 H) e [{ v with lookup := some l' }] pis b ∧
    challenges (rescueOracle te f) e [{ v with lookup := some l }] pis b =
      challenges (rescueOracle te f) e [{ v with lookup := some l' }] pis b := by
  obtain ⟨h1, h2⟩ := C82_not_bound (xy := xy) (te := te) (f := f) (serG := serG) (serG2 := serG2) (H := H) (M := M)
    (vks := [{ v with lookup := some l }]) (vks' := [{ v with lookup := some l' }]) (.cons rfl .nil) e pis b
  obtain ⟨h3, h4⟩ := h1 (.cons ⟨rfl, rfl, rfl, rfl, rfl, rfl⟩ .nil)
  exact ⟨h3, h4, h2 (.cons ⟨rfl, rfl⟩ .nil)⟩

/-- **C82, shape counterexample.** Without labels the lists of selectors and permutation commitments run into each other:
moving a commitment from one to the other changes nothing for Solidity and Rescue. (For `merlin` it does, by
`C82_standard_partial`.) -/
theorem C82_shape_counterexample (v : VKey (ZMod r) G G2) (s s' : List G) (c : G) (e : Option (List ℕ))
    (pis : List (List (ZMod r))) (b : BProof (ZMod r) G) :
    challenges (solOracle xy serG2 H) e [{ v with selectors := s ++ [c], sigmas := s' }] pis b =
      challenges (solOracle xy serG2 H) e [{ v with selectors := s, sigmas := c :: s' }] pis b ∧
    challenges (rescueOracle te f) e [{ v with selectors := s ++ [c], sigmas := s' }] pis b =
      challenges (rescueOracle te f) e [{ v with selectors := s, sigmas := c :: s' }] pis b := by
  refine ⟨challenges_congr (sol_effect ?_) rfl (fun _ _ => rfl) rfl, challenges_congr (res_effect ?_) rfl (fun _ _ => rfl) rfl⟩
  · intro t
    cases pis with
    | nil => rfl
    | cons p pis =>
      have : STr.call xy serG2 H t (.vkAndInput { v with selectors := s ++ [c], sigmas := s' } p) =
          STr.call xy serG2 H t (.vkAndInput { v with selectors := s, sigmas := c :: s' } p) := by
        simp only [STr.call, STr.vkAndInput, STr.points, STr.push, List.flatMap_append, List.flatMap_cons, List.flatMap_nil,
          List.append_nil, List.append_assoc]
      simp only [List.zip_cons_cons, List.map_cons, STr.calls, this, List.zip_nil_left, List.map_nil]
  · intro t
    cases pis with
    | nil => rfl
    | cons p pis =>
      have happ : ∀ (a d : List G) (t : RTr q), t.commitments te (a ++ d) =
          match t.commitments te a with
          | .error e => .error e
          | .ok t => t.commitments te d := by
        intro a d
        induction a with
        | nil => intro t; rfl
        | cons x a ih =>
          intro t
          simp only [List.cons_append, RTr.commitments]
          cases t.commitment te x with
          | error e => rfl
          | ok t => exact ih t
      have : RTr.call te f t (.vkAndInput { v with selectors := s ++ [c], sigmas := s' } p) =
          RTr.call te f t (.vkAndInput { v with selectors := s, sigmas := c :: s' } p) := by
        simp only [RTr.call, RTr.vkAndInput, happ, RTr.commitments]
        cases t.2.commitments te s with
        | error e => rfl
        | ok u =>
          simp only
          cases u.commitment te c <;> rfl
      simp only [List.zip_cons_cons, List.map_cons, RTr.calls, this, List.zip_nil_left, List.map_nil]

end

/-! ## The point at infinity -/

section
variable [Fact q.Prime] (W : WeierstrassCurve.Affine (ZMod q))

/-- `is_zero` and `xy` of a point -/
def coords : W.Point → Option (ZMod q × ZMod q)
  | .zero => none
  | .some x y _ => some (x, y)

/-- **C82, points.** On a curve whose constant coefficient is not zero the hypotheses on `xy` hold: the coordinates
determine the point, and `(0, 0)`, which stands for the point at infinity, is not on the curve. -/
theorem C82_points (h : W.a₆ ≠ 0) : Function.Injective (coords W) ∧ ∀ P, coords W P ≠ some (0, 0) := by
  constructor
  · intro P P' hP
    cases P with
    | zero => cases P' with
      | zero => rfl
      | some x y h => simp [coords] at hP
    | some x y h => cases P' with
      | zero => simp [coords] at hP
      | some x' y' h' =>
        simp only [coords, Option.some.injEq, Prod.mk.injEq] at hP
        obtain ⟨rfl, rfl⟩ := hP
        rfl
  · intro P hP
    cases P with
    | zero => simp [coords] at hP
    | some x y hn =>
      simp only [coords, Option.some.injEq, Prod.mk.injEq] at hP
      obtain ⟨rfl, rfl⟩ := hP
      exact h (W.equation_zero.1 hn.1)

/-- **C82, infinity counterexample.** On `y² = x³ + x` the point `(0, 0)` and the point at infinity are absorbed as the
same bytes. -/
theorem C82_infinity_counterexample :
    ∃ (W : WeierstrassCurve.Affine (ZMod q)) (P : W.Point), P ≠ 0 ∧ solPoint (coords W) P = solPoint (coords W) 0 := by
  let W : WeierstrassCurve.Affine (ZMod q) := ⟨0, 0, 0, 1, 0⟩
  have h : W.Nonsingular 0 0 := by
    rw [WeierstrassCurve.Affine.nonsingular_zero]
    exact ⟨rfl, Or.inr one_ne_zero⟩
  exact ⟨W, .some 0 0 h, WeierstrassCurve.Affine.Point.some_ne_zero h, rfl⟩

end

/-! ## Examples -/

section Examples

/-- a key of two selectors and one permutation commitment -/
def exKey : VKey (ZMod 5) (ZMod 7) (ZMod 7) := ⟨8, 1, [3], [1, 2], [1, 4], ⟨0, 1, 2, [1, 2], []⟩, false, none⟩

/-- a proof -/
def exProof : BProof (ZMod 5) (ZMod 7) := ⟨[[1, 2]], [3], [⟨[1, 2], [3], 4⟩], [none], [4, 5], 6, 0⟩

theorem exChecked (x : ZMod 5) : Checked [exKey] [[x]] exProof :=
  ⟨rfl, rfl, by intro y hy; rw [List.mem_singleton.1 hy]; rfl, fun _ => rfl⟩

theorem exUsable : ∀ v ∈ [exKey], Usable v := by
  intro v hv
  rw [List.mem_singleton.1 hv]
  exact ⟨by decide, by decide, by decide⟩

/-- The hypotheses of `C82_solidity_partial` hold for a constant hash and two different inputs; there the runs collide. -/
example : ∃ x x' : List (ZMod 5) × STr,
    STr.calls (fun c : ZMod 7 => some (c, (1 : ZMod 7))) (toBytesBE : ZMod 7 → _) (fun _ => List.replicate 32 7) ([], STr.new)
      (verifierCalls none [exKey] [[1]] exProof) = some x ∧
    STr.calls (fun c : ZMod 7 => some (c, (1 : ZMod 7))) (toBytesBE : ZMod 7 → _) (fun _ => List.replicate 32 7) ([], STr.new)
      (verifierCalls none [exKey] [[2]] exProof) = some x' ∧ x.2.state = x'.2.state ∧
    ∃ m ∈ solQueries (fun c : ZMod 7 => some (c, (1 : ZMod 7))) (toBytesBE : ZMod 7 → _) (fun _ => List.replicate 32 7)
      (([], STr.new) : List (ZMod 5) × STr) (verifierCalls none [exKey] [[1]] exProof),
      ∃ m' ∈ solQueries (fun c : ZMod 7 => some (c, (1 : ZMod 7))) (toBytesBE : ZMod 7 → _) (fun _ => List.replicate 32 7)
        (([], STr.new) : List (ZMod 5) × STr) (verifierCalls none [exKey] [[2]] exProof), m ≠ m' := by
  refine ⟨_, _, rfl, rfl, rfl, ?_⟩
  rcases C82_solidity_partial (xy := fun c : ZMod 7 => some (c, (1 : ZMod 7))) (serG2 := (toBytesBE : ZMod 7 → _))
    (H := fun _ => List.replicate 32 7) (e := none) (e' := none)
    (by intro a b h; simpa using h) (by intro c h; simp at h; exact absurd h.2 (by decide)) toBytesBE_inj (by intro a b; rw [toBytesBE_length, toBytesBE_length])
    (by intro x; simp) (exChecked 1) (exChecked 2) exUsable exUsable (.cons ⟨rfl, rfl, rfl, rfl⟩ .nil) rfl rfl rfl rfl with
    ⟨m, hm, m', hm', hne, -⟩ | ⟨-, -, h, -⟩
  · exact ⟨m, hm, m', hm', hne⟩
  · exact absurd h (by decide)

theorem res_succeeds [NeZero q] [Nontrivial (ZMod q)] [NeZero r] (hq : Odd q) (hrq : r ≤ q) (hb : bits r < bits q) {te : G → ZMod q × ZMod q}
    {f : Vec (ZMod q) → Vec (ZMod q)} {l : List (Call (ZMod r) G G2)}
    (hm : ∀ lb m, Call.message lb m ∈ l → ∃ L, messageElems q m = .ok L) (s : List (ZMod r) × RTr q) :
    ∃ x, RTr.calls (fun c => some (te c)) f s l = .ok x := by
  induction l generalizing s with
  | nil => exact ⟨s, rfl⟩
  | cons c l ih =>
    have hc : ∃ x, RTr.call (fun c => some (te c)) f s c = .ok x := by
      obtain ⟨out, t⟩ := s
      cases c with
      | message lb m =>
        obtain ⟨L, hL⟩ := hm lb m List.mem_cons_self
        simp only [RTr.call, RTr.message, hL]
        exact ⟨_, rfl⟩
      | vkAndInput vk pi =>
        simp only [RTr.call, RTr.vkAndInput, res_commitments, res_scalars hq hrq]
        exact ⟨_, rfl⟩
      | commitments lb cs => simp only [RTr.call, res_commitments]; exact ⟨_, rfl⟩
      | commitment lb c => exact ⟨_, rfl⟩
      | evals e => simp only [RTr.call, RTr.evals, res_scalars hq hrq]; exact ⟨_, rfl⟩
      | lkEvals e => simp only [RTr.call, RTr.lkEvals, res_scalars hq hrq]; exact ⟨_, rfl⟩
      | challenge lb =>
        obtain ⟨o, ho, hl, -⟩ := Verif.Rescue.C40_variable_total f 4 (t.state.elems ++ t.elems)
        match o, hl with
        | [a, b, c, d], _ =>
          have hn : ¬ (toBytesLE a).length < bits r / 8 := by
            rw [toBytesLE_length]
            unfold limbs
            omega
          simp only [RTr.call, RTr.challenge, ho, fqToFrWithMask, if_pos hb, if_neg hn]
          exact ⟨_, rfl⟩
    obtain ⟨x, hx⟩ := hc
    unfold RTr.calls
    rw [hx]
    exact ih (fun lb m hmem => hm lb m (List.mem_cons_of_mem _ hmem)) x

theorem bits_example : bits (2 ^ 65 + 1) = 66 := by
  refine le_antisymm (Nat.size_le.2 (by norm_num)) (Nat.lt_size.2 (by norm_num))

/-- The hypotheses of `C82_rescue_partial` for any permutation: runs for two different inputs succeed, and if they end with the same
state they collide. -/
example (f : Vec (ZMod (2 ^ 65 + 1)) → Vec (ZMod (2 ^ 65 + 1))) (te : ZMod 7 → ZMod (2 ^ 65 + 1) × ZMod (2 ^ 65 + 1))
    (hte : te = fun c : ZMod 7 => (((c.val : ℕ) : ZMod (2 ^ 65 + 1)), 1)) :
    ∃ x x' : List (ZMod 5) × RTr (2 ^ 65 + 1),
      RTr.calls (fun c => some (te c)) f ([], RTr.new _) (verifierCalls (some [1, 2]) [exKey] [[1]] exProof) = .ok x ∧
      RTr.calls (fun c => some (te c)) f ([], RTr.new _) (verifierCalls (some [1, 2]) [exKey] [[2]] exProof) = .ok x' ∧
      (x.2.state = x'.2.state → ∃ m m', m ≠ m' ∧
        ∃ y, Rescue.variableEvaluate f 4 m = .ok y ∧ Rescue.variableEvaluate f 4 m' = .ok y) := by
  have hq : Odd (2 ^ 65 + 1) := ⟨2 ^ 64, by norm_num⟩
  have h5 : bits 5 = 3 := by decide
  have h64 : 64 < bits (2 ^ 65 + 1) := by rw [bits_example]; norm_num
  have hb : bits 5 < bits (2 ^ 65 + 1) := by rw [bits_example, h5]; norm_num
  have hn : NeZero (2 ^ 65 + 1) := ⟨by norm_num⟩
  have h1 : Fact (1 < 2 ^ 65 + 1) := ⟨by norm_num⟩
  have hm : ∀ x : ZMod 5, ∀ lb m, Call.message lb m ∈ verifierCalls (some [1, 2]) [exKey] [[x]] exProof →
      ∃ L, messageElems (2 ^ 65 + 1) m = .ok L := by
    intro x lb m hmem
    have : m = [1, 2] := by
      simp [verifierCalls, extraMsg, exProof, exKey] at hmem
      exact hmem.2
    subst this
    obtain ⟨L, -, h2, -⟩ := message_elems h64 [1, 2] (by rw [bits_example]; norm_num)
    exact ⟨_, h2⟩
  have run : ∀ x : ZMod 5, ∃ y, RTr.calls (fun c => some (te c)) f ([], RTr.new _)
      (verifierCalls (some [1, 2]) [exKey] [[x]] exProof) = .ok y := fun x => res_succeeds hq (by norm_num) hb (hm x) _
  obtain ⟨x, hx⟩ := run 1
  obtain ⟨x', hx'⟩ := run 2
  refine ⟨x, x', hx, hx', fun hst => ?_⟩
  have hinj : Function.Injective te := by
    subst hte
    intro a b hab
    have h := (Prod.mk.inj hab).1
    have ha := ZMod.val_lt a
    have hb := ZMod.val_lt b
    rw [ZMod.natCast_eq_natCast_iff, Nat.ModEq, Nat.mod_eq_of_lt (by omega), Nat.mod_eq_of_lt (by omega)] at h
    exact ZMod.val_injective 7 h
  rcases C82_rescue_partial hq h64 (by norm_num) hinj (exChecked 1) (exChecked 2) (.cons ⟨⟨rfl, rfl, rfl, rfl⟩, rfl⟩ .nil) rfl
    (by rintro m ⟨⟩; rw [bits_example]; norm_num) hx hx' hst with ⟨m, -, m', -, h⟩ | ⟨-, -, h, -⟩
  · exact ⟨m, m', h⟩
  · exact absurd h (by decide)

/-- The hypotheses of `C82_standard_partial`: these two inputs give different operations. -/
example (ops : List Op) (h : stdCalls (toBytesBE : ZMod 7 → _) (toBytesBE : ZMod 7 → _) (verifierCalls none [exKey] [[(1 : ZMod 5)]] exProof) = some ops) :
    stdCalls (toBytesBE : ZMod 7 → _) (toBytesBE : ZMod 7 → _) (verifierCalls none [exKey] [[(2 : ZMod 5)]] exProof) ≠ some ops := by
  intro h'
  exact absurd (C82_standard_partial toBytesBE_inj toBytesBE_inj rfl rfl exUsable exUsable h h').2.2.1 (by decide)

/-- Two different proofs that differ by a boundary, `C82_boundaries`. -/
example : (⟨[[1, 2], [3]], [3, 4], [], [], [], 6, 0⟩ : BProof (ZMod 5) (ZMod 7)).wires ≠
      (⟨[[1], [2, 3]], [3, 4], [], [], [], 6, 0⟩ : BProof (ZMod 5) (ZMod 7)).wires ∧
    (⟨[[1, 2], [3]], [3, 4], [], [], [], 6, 0⟩ : BProof (ZMod 5) (ZMod 7)).wires.flatten =
      (⟨[[1], [2, 3]], [3, 4], [], [], [], 6, 0⟩ : BProof (ZMod 5) (ZMod 7)).wires.flatten := by decide

/-- The curve `y² = x³ + 3` of BN254 has no point `(0, 0)`. -/
example [Fact (Nat.Prime 21888242871839275222246405745257275088696311157297823662689037894645226208583)] :
    ∀ P, coords (⟨0, 0, 0, 0, 3⟩ : WeierstrassCurve.Affine
      (ZMod 21888242871839275222246405745257275088696311157297823662689037894645226208583)) P ≠ some (0, 0) := by
  refine (C82_points _ ?_).2
  show (3 : ZMod _) ≠ 0
  rw [show (3 : ZMod 21888242871839275222246405745257275088696311157297823662689037894645226208583) = ((3 : ℕ) : ZMod _) by norm_num,
    ne_eq, ZMod.natCast_eq_zero_iff]
  norm_num

end Examples

end Verif.Props.TranscriptBinding
