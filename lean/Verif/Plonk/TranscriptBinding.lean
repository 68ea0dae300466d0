import Verif.Plonk.ByteTranscripts
import Verif.Plonk.RescueTranscript

/-!
# What equal transcripts have in common

Lemmas for `Props/TranscriptBinding.lean`. A transcript that hashes at every challenge is a fold of the hash over the
segments between the challenges; codes of fixed width can be read back from their concatenation.
-/

namespace Verif.Plonk

open Verif.Conv

variable {F G G2 A : Type}

/-- the lookup proofs that are present -/
def BProof.lks (b : BProof F G) : List (LkProof F G) := b.lookups.filterMap id

/-- the values of one instance in the order of the transcript -/
def Evals.all (e : Evals F) : List F := e.wires ++ e.sigmas ++ [e.permNext]

/-- the values of a lookup argument in the order of the transcript -/
def LkEvals.all (e : LkEvals F) : List F := e.evals ++ e.nextEvals

/-- two keys have the parts that the byte transcripts absorb in common -/
structure KeyEq (v v' : VKey F G G2) : Prop where
  domSize : v.domSize = v'.domSize
  numInputs : v.numInputs = v'.numInputs
  srs : v.openKey.powersOfH[1]? = v'.openKey.powersOfH[1]?
  k : v.k = v'.k
  selectors : v.selectors = v'.selectors
  sigmas : v.sigmas = v'.sigmas

/-- two proofs agree, up to the boundaries inside of lists -/
structure ProofEq (b b' : BProof F G) : Prop where
  wires : b.wires.flatten = b'.wires.flatten
  sorted : b.lks.flatMap (·.h) = b'.lks.flatMap (·.h)
  prodPerm : b.prodPerm = b'.prodPerm
  prodLookup : b.lks.map (·.prod) = b'.lks.map (·.prod)
  quot : b.quot = b'.quot
  evals : b.evals.flatMap Evals.all = b'.evals.flatMap Evals.all
  evalsLookup : b.lks.map (·.evals) = b'.lks.map (·.evals)
  opening : b.opening = b'.opening
  shifted : b.shifted = b'.shifted

/-! ### codes of fixed width -/

/-- an injective code of fixed positive width -/
structure Code {X : Type} (e : X → List A) (n : ℕ) : Prop where
  len : ∀ x, (e x).length = n
  inj : Function.Injective e
  pos : 0 < n

theorem Code.flatMap_length {X : Type} {e : X → List A} {n : ℕ} (h : Code e n) (xs : List X) :
    (xs.flatMap e).length = xs.length * n := by
  induction xs with
  | nil => simp
  | cons x xs ih => rw [List.flatMap_cons, List.length_append, h.len, ih, List.length_cons]; ring

theorem Code.flatMap_inj {X : Type} {e : X → List A} {n : ℕ} (h : Code e n) {xs ys : List X}
    (heq : xs.flatMap e = ys.flatMap e) : xs = ys := by
  induction xs generalizing ys with
  | nil =>
    cases ys with
    | nil => rfl
    | cons y ys =>
      have := congrArg List.length heq
      rw [h.flatMap_length, h.flatMap_length] at this
      have := h.pos
      simp only [List.length_nil, List.length_cons, zero_mul, Nat.add_mul] at *
      omega
  | cons x xs ih =>
    cases ys with
    | nil =>
      have := congrArg List.length heq
      rw [h.flatMap_length, h.flatMap_length] at this
      have := h.pos
      simp only [List.length_nil, List.length_cons, zero_mul, Nat.add_mul] at *
      omega
    | cons y ys =>
      rw [List.flatMap_cons, List.flatMap_cons] at heq
      obtain ⟨h1, h2⟩ := List.append_inj heq (by rw [h.len, h.len])
      rw [h.inj h1, ih h2]

/-- reading back a list of known length and what follows -/
theorem Code.append_inj {X : Type} {e : X → List A} {n : ℕ} (h : Code e n) {xs ys : List X} {r s : List A}
    (hl : xs.length = ys.length) (heq : xs.flatMap e ++ r = ys.flatMap e ++ s) : xs = ys ∧ r = s := by
  obtain ⟨h1, h2⟩ := List.append_inj heq (by rw [h.flatMap_length, h.flatMap_length, hl])
  exact ⟨h.flatMap_inj h1, h2⟩

/-! ### the segments between the challenges -/

section
variable (eS : F → List A) (eG : G → List A) (eV : VKey F G G2 → List A) (eM : Option (List ℕ) → List A)

/-- what is absorbed for keys and inputs -/
def keySeg (vks : List (VKey F G G2)) (pis : List (List F)) : List A :=
  (vks.zip pis).flatMap fun x => eV x.1 ++ x.2.flatMap eS

/-- the segments between the challenges -/
def segs (e : Option (List ℕ)) (vks : List (VKey F G G2)) (pis : List (List F)) (b : BProof F G) : List (List A) :=
  (if vks.any (·.lookup.isSome) then
    [eM e ++ keySeg eS eV vks pis ++ b.wires.flatten.flatMap eG, (b.lks.flatMap (·.h)).flatMap eG]
  else [eM e ++ keySeg eS eV vks pis ++ b.wires.flatten.flatMap eG ++ (b.lks.flatMap (·.h)).flatMap eG]) ++
  [[], (b.prodPerm ++ b.lks.map (·.prod)).flatMap eG, b.quot.flatMap eG,
    (b.evals.flatMap Evals.all ++ b.lks.flatMap (fun l => l.evals.all)).flatMap eS, [b.opening, b.shifted].flatMap eG]

end

section
variable {eS : F → List A} {eG : G → List A} {eV : VKey F G G2 → List A} {eM : Option (List ℕ) → List A}

theorem keySeg_inj {n : ℕ} (hS : Code eS n) {K : VKey F G G2 → VKey F G G2 → Prop} {vks vks' : List (VKey F G G2)}
    {pis pis' : List (List F)} (hk : vks.length = pis.length) (hk' : vks'.length = pis'.length)
    (hV : List.Forall₂ (fun v v' => (eV v).length = (eV v').length ∧ (eV v = eV v' → K v v')) vks vks')
    (hp : ∀ x ∈ vks.zip pis, ∀ y ∈ vks'.zip pis', K x.1 y.1 → x.2.length = y.2.length) {r s : List A}
    (heq : keySeg eS eV vks pis ++ r = keySeg eS eV vks' pis' ++ s) : List.Forall₂ K vks vks' ∧ pis = pis' ∧ r = s := by
  induction hV generalizing pis pis' with
  | nil =>
    obtain rfl : pis = [] := List.length_eq_zero_iff.1 hk.symm
    obtain rfl : pis' = [] := List.length_eq_zero_iff.1 hk'.symm
    exact ⟨.nil, rfl, heq⟩
  | @cons v v' vs vs' h1 _ ih =>
    match pis, pis', hk, hk' with
    | p :: ps, p' :: ps', hk, hk' =>
      simp only [keySeg, List.zip_cons_cons, List.flatMap_cons, List.append_assoc] at heq hp
      obtain ⟨a1, a2⟩ := List.append_inj heq h1.1
      obtain ⟨b1, b2⟩ := hS.append_inj (hp (v, p) List.mem_cons_self (v', p') List.mem_cons_self (h1.2 a1)) a2
      obtain ⟨c1, c2, c3⟩ := ih (by simpa using hk) (by simpa using hk')
        (fun x hx y hy => hp x (List.mem_cons_of_mem _ hx) y (List.mem_cons_of_mem _ hy)) b2
      exact ⟨.cons (h1.2 a1) c1, congrArg₂ List.cons b1 c2, c3⟩

theorem any_isSome {vks vks' : List (VKey F G G2)}
    (h : List.Forall₂ (fun v v' => v.lookup.isSome = v'.lookup.isSome) vks vks') :
    vks.any (·.lookup.isSome) = vks'.any (·.lookup.isSome) := by
  induction h with
  | nil => rfl
  | cons h _ ih => simp only [List.any_cons, h, ih]

theorem lkAll_length (e : LkEvals F) : e.all.length = 15 := rfl

theorem lkAll_inj {e e' : LkEvals F} (h : e.all = e'.all) : e = e' := by
  cases e; cases e'
  simp only [LkEvals.all, LkEvals.evals, LkEvals.nextEvals, List.cons_append, List.nil_append, List.cons.injEq] at h
  simp only [LkEvals.mk.injEq]
  tauto

theorem lkFlat_length {l l' : List (LkProof F G)} (h : l.length = l'.length) :
    (l.flatMap (fun l => l.evals.all)).length = (l'.flatMap (fun l => l.evals.all)).length := by
  simp only [List.length_flatMap, lkAll_length, List.map_const', List.sum_replicate, h]

theorem lkFlat_inj {l l' : List (LkProof F G)} (h : l.length = l'.length)
    (hh : l.flatMap (fun l => l.evals.all) = l'.flatMap (fun l => l.evals.all)) : l.map (·.evals) = l'.map (·.evals) := by
  induction l generalizing l' with
  | nil => obtain rfl := List.length_eq_zero_iff.1 h.symm; rfl
  | cons x l ih =>
    cases l' with
    | nil => simp at h
    | cons y l' =>
      rw [List.flatMap_cons, List.flatMap_cons] at hh
      obtain ⟨q1, q2⟩ := List.append_inj hh rfl
      rw [List.map_cons, List.map_cons, lkAll_inj q1, ih (by simpa using h) q2]

/-- Equal segments mean equal data, for keys of the same shape. -/
theorem segs_inj {n m : ℕ} (hS : Code eS n) (hG : Code eG m) {K : VKey F G G2 → VKey F G G2 → Prop}
    {vks vks' : List (VKey F G G2)} {pis pis' : List (List F)} {b b' : BProof F G} {e e' : Option (List ℕ)}
    (hk : vks.length = pis.length) (hk' : vks'.length = pis'.length)
    (hV : List.Forall₂ (fun v v' => (eV v).length = (eV v').length ∧ (eV v = eV v' → K v v')) vks vks')
    (hL : List.Forall₂ (fun v v' => v.lookup.isSome = v'.lookup.isSome) vks vks')
    (hp : ∀ x ∈ vks.zip pis, ∀ y ∈ vks'.zip pis', K x.1 y.1 → x.2.length = y.2.length) (hM : (eM e).length = (eM e').length)
    (hb : b.prodPerm.length = b'.prodPerm.length) (hw : vks.any (·.lookup.isSome) = false →
      b.lks = [] ∧ b'.lks = [])
    (heq : segs eS eG eV eM e vks pis b = segs eS eG eV eM e' vks' pis' b') :
    eM e = eM e' ∧ List.Forall₂ K vks vks' ∧ pis = pis' ∧ ProofEq b b' := by
  have key : (eM e ++ keySeg eS eV vks pis ++ b.wires.flatten.flatMap eG =
      eM e' ++ keySeg eS eV vks' pis' ++ b'.wires.flatten.flatMap eG ∧
      (b.lks.flatMap (·.h)).flatMap eG = (b'.lks.flatMap (·.h)).flatMap eG) ∧
      (b.prodPerm ++ b.lks.map (·.prod)).flatMap eG = (b'.prodPerm ++ b'.lks.map (·.prod)).flatMap eG ∧
      b.quot.flatMap eG = b'.quot.flatMap eG ∧
      (b.evals.flatMap Evals.all ++ b.lks.flatMap (fun l => l.evals.all)).flatMap eS =
        (b'.evals.flatMap Evals.all ++ b'.lks.flatMap (fun l => l.evals.all)).flatMap eS ∧
      [b.opening, b.shifted].flatMap eG = [b'.opening, b'.shifted].flatMap eG := by
    unfold segs at heq
    rw [← any_isSome hL] at heq
    by_cases ha : vks.any (·.lookup.isSome)
    · simp only [ha, if_true, List.cons_append, List.nil_append, List.cons.injEq, and_true, true_and] at heq
      exact ⟨⟨heq.1, heq.2.1⟩, heq.2.2⟩
    · rw [Bool.not_eq_true] at ha
      obtain ⟨w1, w2⟩ := hw ha
      simp only [ha, w1, w2, Bool.false_eq_true, if_false, List.flatMap_nil, List.append_nil, List.cons_append,
        List.nil_append, List.cons.injEq, and_true, true_and, List.map_nil] at heq ⊢
      exact heq
  obtain ⟨⟨k1, k2⟩, k3, k4, k5, k6⟩ := key
  rw [List.append_assoc, List.append_assoc] at k1
  obtain ⟨a1, a2⟩ := List.append_inj k1 hM
  obtain ⟨b1, b2, b3⟩ := keySeg_inj hS hk hk' hV hp a2
  obtain ⟨p1, p2⟩ := List.append_inj (hG.flatMap_inj k3) hb
  have hlen : b.lks.length = b'.lks.length := by simpa using congrArg List.length p2
  have h5 := hS.flatMap_inj k5
  obtain ⟨e1, e2⟩ := List.append_inj' h5 (lkFlat_length hlen)
  have h6 := hG.flatMap_inj k6
  simp only [List.cons.injEq, and_true] at h6
  exact ⟨a1, b1, b2, hG.flatMap_inj b3, hG.flatMap_inj k2, p1, p2, hG.flatMap_inj k4, e1, lkFlat_inj hlen e2, h6.1, h6.2⟩

end

/-! ### folds of a hash -/

/-- the states hashed on the way -/
def foldQueries {S : Type} (H : S → List A → S) : S → List (List A) → List (S × List A)
  | _, [] => []
  | s, x :: xs => (s, x) :: foldQueries H (H s x) xs

/-- Folds with the same result over equally many segments have the same start and segments, or contain a collision. -/
theorem fold_collision {S : Type} (H : S → List A → S) {l l' : List (List A)} (hl : l.length = l'.length) (s s' : S)
    (h : l.foldl H s = l'.foldl H s') :
    (s = s' ∧ l = l') ∨ ∃ x ∈ foldQueries H s l, ∃ y ∈ foldQueries H s' l', x ≠ y ∧ H x.1 x.2 = H y.1 y.2 := by
  induction l generalizing l' s s' with
  | nil =>
    obtain rfl := List.length_eq_zero_iff.1 hl.symm
    exact Or.inl ⟨h, rfl⟩
  | cons x l ih =>
    cases l' with
    | nil => simp at hl
    | cons y l' =>
      rcases ih (l' := l') (by simpa using hl) (H s x) (H s' y) h with ⟨h1, h2⟩ | ⟨x', hx, y', hy, h1⟩
      · by_cases hxy : (s, x) = (s', y)
        · obtain ⟨rfl, rfl⟩ := Prod.mk.inj hxy
          exact Or.inl ⟨rfl, by rw [h2]⟩
        · exact Or.inr ⟨_, List.mem_cons_self, _, List.mem_cons_self, hxy, h1⟩
      · exact Or.inr ⟨x', List.mem_cons_of_mem _ hx, y', List.mem_cons_of_mem _ hy, h1⟩

/-! ### transcripts as machines -/

section
variable {S : Type} (H : S → List A → S) (enc : Call F G G2 → Option (List A))

/-- a transcript with a state and absorbed elements; `enc` is what a call absorbs, none if it fails -/
def run : S × List A → List (Call F G G2) → Option (S × List A)
  | s, [] => some s
  | s, .challenge _ :: cs => run (H s.1 s.2, []) cs
  | s, c :: cs =>
    match enc c with
    | none => none
    | some a => run (s.1, s.2 ++ a) cs

/-- what it hashes on the way -/
def runQueries : S × List A → List (Call F G G2) → List (S × List A)
  | _, [] => []
  | s, .challenge _ :: cs => s :: runQueries (H s.1 s.2, []) cs
  | s, c :: cs =>
    match enc c with
    | none => []
    | some a => runQueries (s.1, s.2 ++ a) cs

variable {H enc}

theorem run_append {s t : S × List A} {l l' : List (Call F G G2)} (h : run H enc s (l ++ l') = some t) :
    ∃ m, run H enc s l = some m ∧ run H enc m l' = some t ∧
      runQueries H enc s (l ++ l') = runQueries H enc s l ++ runQueries H enc m l' := by
  induction l generalizing s with
  | nil => exact ⟨s, rfl, h, rfl⟩
  | cons c l ih =>
    cases c with
    | challenge lb =>
      obtain ⟨m, h1, h2, h3⟩ := ih h
      exact ⟨m, h1, h2, congrArg (s :: ·) h3⟩
    | _ =>
      simp only [run, runQueries, List.cons_append] at h ⊢
      split at h
      · cases h
      · next a ha =>
        obtain ⟨m, h1, h2, h3⟩ := ih h
        exact ⟨m, h1, h2, h3⟩

/-- the list of calls only absorbs, and what it absorbs if it succeeds is `L` -/
def Absorb (H : S → List A → S) (enc : Call F G G2 → Option (List A)) (l : List (Call F G G2)) (L : List A) : Prop :=
  ∀ s t, run H enc s l = some t → t = (s.1, s.2 ++ L) ∧ runQueries H enc s l = []

theorem Absorb.nil : Absorb H enc [] [] := by
  intro s t h
  cases h
  exact ⟨by rw [List.append_nil], rfl⟩

theorem Absorb.append {l l' : List (Call F G G2)} {L L' : List A} (h : Absorb H enc l L) (h' : Absorb H enc l' L') :
    Absorb H enc (l ++ l') (L ++ L') := by
  intro s t hr
  obtain ⟨m, h1, h2, h3⟩ := run_append hr
  obtain ⟨rfl, q1⟩ := h _ _ h1
  obtain ⟨rfl, q2⟩ := h' _ _ h2
  exact ⟨by rw [List.append_assoc], by rw [h3, q1, q2]; rfl⟩

theorem Absorb.single {c : Call F G G2} {L : List A} (hc : ∀ lb, c ≠ .challenge lb)
    (h : ∀ a, enc c = some a → a = L) : Absorb H enc [c] L := by
  intro s t hr
  cases c with
  | challenge lb => exact absurd rfl (hc lb)
  | _ =>
    simp only [run, runQueries] at hr ⊢
    split at hr
    · cases hr
    · next a ha =>
      cases hr
      rw [h a ha]
      exact ⟨rfl, rfl⟩

theorem Absorb.map {X : Type} {g : X → Call F G G2} {L : X → List A} (h : ∀ x, Absorb H enc [g x] (L x)) (xs : List X) :
    Absorb H enc (xs.map g) (xs.flatMap L) := by
  induction xs with
  | nil => exact Absorb.nil
  | cons x xs ih => exact (h x).append ih

theorem Absorb.filterMap {X : Type} {g : X → Call F G G2} {L : X → List A} (h : ∀ x, Absorb H enc [g x] (L x))
    (xs : List (Option X)) : Absorb H enc (xs.filterMap (·.map g)) ((xs.filterMap id).flatMap L) := by
  induction xs with
  | nil => exact Absorb.nil
  | cons x xs ih =>
    cases x with
    | none => exact ih
    | some x => exact (h x).append ih

/-- `l` runs through the given segments, each ended by a challenge -/
def Through (H : S → List A → S) (enc : Call F G G2 → Option (List A)) (l : List (Call F G G2)) (L : List (List A)) : Prop :=
  ∀ s t, run H enc (s, []) l = some t → t = (L.foldl H s, []) ∧ runQueries H enc (s, []) l = foldQueries H s L

theorem Through.append {l l' : List (Call F G G2)} {L L' : List (List A)} (h : Through H enc l L) (h' : Through H enc l' L') :
    Through H enc (l ++ l') (L ++ L') := by
  intro s t hr
  obtain ⟨m, h1, h2, h3⟩ := run_append hr
  obtain ⟨rfl, q1⟩ := h _ _ h1
  obtain ⟨rfl, q2⟩ := h' _ _ h2
  refine ⟨by rw [List.foldl_append], ?_⟩
  rw [h3, q1, q2]
  clear h h' hr h1 h2 h3 q1 q2
  induction L generalizing s with
  | nil => rfl
  | cons x L ih => exact congrArg ((s, x) :: ·) (ih _)

theorem Through.one {l : List (Call F G G2)} {L : List A} (h : Absorb H enc l L) (lb : String) :
    Through H enc (l ++ [.challenge lb]) [L] := by
  intro s t hr
  obtain ⟨m, h1, h2, h3⟩ := run_append hr
  obtain ⟨rfl, q1⟩ := h _ _ h1
  cases h2
  rw [h3, q1]
  exact ⟨rfl, rfl⟩

/-- what the calls absorb, if they succeed -/
structure Encodes (enc : Call F G G2 → Option (List A)) (eS : F → List A) (eG : G → List A) (eV : VKey F G G2 → List A)
    (eM : Option (List ℕ) → List A) : Prop where
  none : eM none = []
  message : ∀ lb m a, enc (.message lb m) = some a → a = eM (some m)
  vk : ∀ vk pi a, enc (.vkAndInput vk pi) = some a → a = eV vk ++ pi.flatMap eS
  points : ∀ lb cs a, enc (.commitments lb cs) = some a → a = cs.flatMap eG
  point : ∀ lb c a, enc (.commitment lb c) = some a → a = eG c
  evals : ∀ e a, enc (.evals e) = some a → a = e.all.flatMap eS
  lkEvals : ∀ e a, enc (.lkEvals e) = some a → a = e.all.flatMap eS

theorem verifier_through {eS : F → List A} {eG : G → List A} {eV : VKey F G G2 → List A} {eM : Option (List ℕ) → List A}
    (h : Encodes enc eS eG eV eM) (e : Option (List ℕ)) (vks : List (VKey F G G2)) (pis : List (List F)) (b : BProof F G) :
    Through H enc (verifierCalls e vks pis b) (segs eS eG eV eM e vks pis b) := by
  have am : Absorb H enc (extraMsg e) (eM e) := by
    cases e with
    | none => rw [h.none]; exact Absorb.nil
    | some m => exact Absorb.single (by intro lb hh; cases hh) (h.message _ _)
  have av : Absorb H enc ((vks.zip pis).map (fun x => .vkAndInput x.1 x.2)) (keySeg eS eV vks pis) :=
    Absorb.map (fun x => Absorb.single (by intro lb hh; cases hh) (h.vk _ _)) _
  have aw : Absorb H enc (b.wires.map (.commitments "witness_poly_comms" ·)) (b.wires.flatten.flatMap eG) := by
    have := Absorb.map (H := H) (enc := enc) (g := fun cs : List G => .commitments "witness_poly_comms" cs)
      (L := fun cs => cs.flatMap eG) (fun x => Absorb.single (by intro lb hh; cases hh) (h.points _ _)) b.wires
    rwa [← List.flatMap_id, List.flatMap_assoc]
  have ah : Absorb H enc (b.lookups.filterMap (·.map (fun l => .commitments "h_poly_comms" l.h)))
      ((b.lks.flatMap (·.h)).flatMap eG) := by
    rw [List.flatMap_assoc]
    exact Absorb.filterMap (fun x => Absorb.single (by intro lb hh; cases hh) (h.points _ _)) _
  have ap : Absorb H enc (b.prodPerm.map (.commitment "perm_poly_comms" ·)) (b.prodPerm.flatMap eG) :=
    Absorb.map (fun x => Absorb.single (by intro lb hh; cases hh) (h.point _ _)) _
  have al : Absorb H enc (b.lookups.filterMap (·.map (fun l => .commitment "plookup_poly_comms" l.prod)))
      ((b.lks.map (·.prod)).flatMap eG) := by
    rw [List.flatMap_map]
    exact Absorb.filterMap (fun x => Absorb.single (by intro lb hh; cases hh) (h.point _ _)) _
  have aq : Absorb H enc [.commitments "quot_poly_comms" b.quot] (b.quot.flatMap eG) :=
    Absorb.single (by intro lb hh; cases hh) (h.points _ _)
  have ae : Absorb H enc (b.evals.map (.evals ·)) ((b.evals.flatMap Evals.all).flatMap eS) := by
    rw [List.flatMap_assoc]
    exact Absorb.map (fun x => Absorb.single (by intro lb hh; cases hh) (h.evals _)) _
  have ake : Absorb H enc (b.lookups.filterMap (·.map (fun l => .lkEvals l.evals)))
      ((b.lks.flatMap (fun l => l.evals.all)).flatMap eS) := by
    rw [List.flatMap_assoc]
    exact Absorb.filterMap (fun x => Absorb.single (by intro lb hh; cases hh) (h.lkEvals _)) _
  have ao : Absorb H enc [.commitment "open_proof" b.opening, .commitment "shifted_open_proof" b.shifted]
      ([b.opening, b.shifted].flatMap eG) := by
    have := (Absorb.single (H := H) (enc := enc) (c := .commitment "open_proof" b.opening)
      (by intro lb hh; cases hh) (h.point _ _)).append
      (Absorb.single (c := .commitment "shifted_open_proof" b.shifted) (by intro lb hh; cases hh) (h.point _ _))
    simpa using this
  have rest := ((((Through.one (Absorb.nil (H := H) (enc := enc)) "gamma").append
    (Through.one (ap.append al) "alpha")).append (Through.one aq "zeta")).append
    (Through.one (ae.append ake) "v")).append (Through.one ao "u")
  rw [← List.flatMap_append, ← List.flatMap_append] at rest
  unfold verifierCalls segs
  by_cases ha : vks.any (·.lookup.isSome)
  · have first := (Through.one ((am.append av).append aw) "tau").append (Through.one ah "beta")
    have all := first.append rest
    simp only [ha, if_true, List.append_assoc, List.nil_append, List.cons_append] at all ⊢
    exact all
  · have first := Through.one (((am.append av).append aw).append ah) "beta"
    have all := first.append rest
    simp only [ha, List.append_assoc, List.nil_append, List.cons_append, Bool.false_eq_true, if_false] at all ⊢
    exact all

theorem segs_length {eS : F → List A} {eG : G → List A} {eV : VKey F G G2 → List A} {eM : Option (List ℕ) → List A}
    (e e' : Option (List ℕ)) {vks vks' : List (VKey F G G2)} (pis pis' : List (List F)) (b b' : BProof F G)
    (h : vks.any (·.lookup.isSome) = vks'.any (·.lookup.isSome)) :
    (segs eS eG eV eM e vks pis b).length = (segs eS eG eV eM e' vks' pis' b').length := by
  unfold segs
  rw [h]
  split <;> rfl

end

end Verif.Plonk
