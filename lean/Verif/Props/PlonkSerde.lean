import Verif.Plonk.Serde
import Verif.Plonk.Snark
import Verif.Plonk.LagrangeLemmas
import Verif.Props.MerkleSerde

/-!
# C94: serialized proofs and keys
-/

namespace Verif.Props.PlonkSerde

open Verif.Conv Verif.Plonk Verif.Plonk.Serde Verif.Pcs Verif.Props.MerkleSerde
open Verif.Merkle.Serde (Codec readExact bytesCodec uintCodec vecCodec)

set_option linter.unusedSectionVars false

/-! ## Specification -/

variable {X Y F G G2 GT : Type}

/-- a value that is absent or in `V` -/
def OptOf (V : X → Prop) : Option X → Prop
  | none => True
  | some x => V x

/-- evaluations that fit into memory -/
def EvalsFit (e : Evals F) : Prop := e.wires.length < 2 ^ 64 ∧ e.sigmas.length < 2 ^ 64

/-- lookup proofs that fit into memory, with points in `VG` -/
def LkFit (VG : G → Prop) (l : LkProof F G) : Prop := VecOf VG l.h ∧ VG l.prod

/-- proofs that fit into memory, with points in `VG` -/
structure ProofFit (VG : G → Prop) (b : Proof F G) : Prop where
  wires : VecOf VG b.wires
  prodPerm : VG b.prodPerm
  quot : VecOf VG b.quot
  opening : VG b.opening
  shifted : VG b.shifted
  evals : EvalsFit b.evals
  lookup : OptOf (LkFit VG) b.lookup

/-- batch proofs that fit into memory, with points in `VG` -/
structure BatchFit (VG : G → Prop) (b : BProof F G) : Prop where
  wires : VecOf (VecOf VG) b.wires
  prodPerm : VecOf VG b.prodPerm
  evals : VecOf EvalsFit b.evals
  lookups : VecOf (OptOf (LkFit VG)) b.lookups
  quot : VecOf VG b.quot
  opening : VG b.opening
  shifted : VG b.shifted

/-- opening keys that fit into memory, with points in `VG` and `VG2` -/
structure OpenFit (VG : G → Prop) (VG2 : G2 → Prop) (k : VerifierParam G G2) : Prop where
  g : VG k.g
  h : VG2 k.h
  betaH : VG2 k.betaH
  powersOfH : VecOf VG2 k.powersOfH
  powersOfG : VecOf VG k.powersOfG

/-- the points of the lookup part of a key are in `VG` -/
def LkVkFit (VG : G → Prop) (l : LkVk G) : Prop := VG l.range ∧ VG l.key ∧ VG l.tableDomSep ∧ VG l.qDomSep

/-- verifying keys that fit into memory, with points in `VG` and `VG2` -/
structure VkFit (VG : G → Prop) (VG2 : G2 → Prop) (v : VKey F G G2) : Prop where
  domSize : v.domSize < 2 ^ 64
  numInputs : v.numInputs < 2 ^ 64
  sigmas : VecOf VG v.sigmas
  selectors : VecOf VG v.selectors
  k : v.k.length < 2 ^ 64
  openKey : OpenFit VG VG2 v.openKey
  lookup : OptOf (LkVkFit VG) v.lookup

/-- tables that fit into memory -/
def LkPkFit (l : LkPk F) : Prop :=
  l.range.length < 2 ^ 64 ∧ l.key.length < 2 ^ 64 ∧ l.tableDomSep.length < 2 ^ 64 ∧ l.qDomSep.length < 2 ^ 64

/-- proving keys that fit into memory, with points in `VG` and `VG2` -/
structure PkFit (VG : G → Prop) (VG2 : G2 → Prop) (k : PKey F G G2) : Prop where
  sigmas : k.sigmas.length < 2 ^ 64 ∧ ∀ l ∈ k.sigmas, l.length < 2 ^ 64
  selectors : k.selectors.length < 2 ^ 64 ∧ ∀ l ∈ k.selectors, l.length < 2 ^ 64
  commitKey : VecOf VG k.commitKey.powersOfG
  vk : VkFit VG VG2 k.vk
  lookup : OptOf LkPkFit k.lookup

/-- read back, and only from the bytes that were written -/
def Sound (V : X → Prop) (c : Codec X) : Prop := Faithful V c ∧ Exact V c

/-- the number of wires of a key -/
def wiresOf (vk : VKey F G G2) : ℕ := if vk.lookup.isSome then 6 else 5

/-- a verifying key with as many commitments as `preprocess` writes -/
structure KeyShape (vk : VKey F G G2) : Prop where
  sigmas : vk.sigmas.length = wiresOf vk
  selectors : vk.lookup.isSome → vk.selectors ≠ []

/-- a proof with as many commitments and evaluations as the prover writes for the key -/
structure ProofShape (vk : VKey F G G2) (b : Proof F G) : Prop where
  wires : b.wires.length = wiresOf vk
  quot : b.quot ≠ []
  wireEvals : b.evals.wires.length = wiresOf vk
  sigmaEvals : b.evals.sigmas.length + 1 = wiresOf vk
  lookup : b.lookup.isSome = vk.lookup.isSome
  sorted : ∀ l, b.lookup = some l → 2 ≤ l.h.length

/-! ## Building blocks -/

theorem Sound.congr {V W : X → Prop} {c : Codec X} (h : Sound V c) (hw : ∀ x, W x ↔ V x) : Sound W c :=
  ⟨fun x hx => h.1 x ((hw x).1 hx), fun b x r hd => ⟨(hw x).2 (h.2 b x r hd).1, (h.2 b x r hd).2⟩⟩

theorem sound_vec {V : X → Prop} {c : Codec X} (h : Sound V c) : Sound (VecOf V) (vecCodec c) :=
  ⟨vec_faithful h.1, vec_exact h.2⟩

theorem sound_pair {V : X → Prop} {W : Y → Prop} {c : Codec X} {d : Codec Y} (h : Sound V c) (h' : Sound W d) :
    Sound (fun x : X × Y => V x.1 ∧ W x.2) (pairCodec c d) := by
  constructor
  · rintro ⟨x, y⟩ ⟨hx, hy⟩ r
    have h1 := h.1 x hx (d.ser y ++ r)
    have h2 := h'.1 y hy r
    simp only [pairCodec, List.append_assoc, h1, h2]
  · intro b z r hd
    cases h1 : c.de b with
    | none => simp [pairCodec, h1] at hd
    | some u =>
      obtain ⟨x, b'⟩ := u
      cases h2 : d.de b' with
      | none => simp [pairCodec, h1, h2] at hd
      | some u =>
        obtain ⟨y, b''⟩ := u
        simp only [pairCodec, h1, h2, Option.some.injEq, Prod.mk.injEq] at hd
        obtain ⟨rfl, rfl⟩ := hd
        obtain ⟨hx, rfl⟩ := h.2 _ _ _ h1
        obtain ⟨hy, rfl⟩ := h'.2 _ _ _ h2
        exact ⟨⟨hx, hy⟩, by simp [pairCodec]⟩

theorem sound_struct {V : X → Prop} {c : Codec X} (h : Sound V c) (build : X → Y) (fields : Y → X)
    (h1 : ∀ y, build (fields y) = y) (h2 : ∀ x, fields (build x) = x) :
    Sound (fun y => V (fields y)) (structCodec build fields c) := by
  constructor
  · intro y hy r
    simp only [structCodec, h.1 _ hy r, Option.map_some, h1]
  · intro b y r hd
    simp only [structCodec, Option.map_eq_some_iff, Prod.mk.injEq, Prod.exists] at hd
    obtain ⟨x, r', hd, rfl, rfl⟩ := hd
    obtain ⟨hx, rfl⟩ := h.2 _ _ _ hd
    exact ⟨by simpa only [h2] using hx, by simp only [structCodec, h2]⟩

theorem sound_bool : Sound (fun _ => True) boolCodec := by
  constructor
  · intro x _ r
    cases x <;> simp [boolCodec]
  · intro b x r hd
    refine ⟨trivial, ?_⟩
    cases b with
    | nil => simp [boolCodec] at hd
    | cons y b =>
      simp only [boolCodec] at hd
      split at hd
      · rename_i hy
        simp only [Option.some.injEq, Prod.mk.injEq] at hd
        obtain ⟨rfl, rfl⟩ := hd
        simp [boolCodec, hy]
      · split at hd
        · rename_i hy
          simp only [Option.some.injEq, Prod.mk.injEq] at hd
          obtain ⟨rfl, rfl⟩ := hd
          simp [boolCodec, hy]
        · cases hd

theorem sound_opt {V : X → Prop} {c : Codec X} (h : Sound V c) : Sound (OptOf V) (optCodec c) := by
  constructor
  · intro x hx r
    cases x with
    | none => simp only [optCodec, sound_bool.1 false trivial r]
    | some x =>
      simp only [optCodec, List.append_assoc, sound_bool.1 true trivial, h.1 x hx r, Option.map_some]
  · intro b x r hd
    cases h1 : boolCodec.de b with
    | none => simp [optCodec, h1] at hd
    | some u =>
      obtain ⟨y, b'⟩ := u
      obtain ⟨-, rfl⟩ := sound_bool.2 _ _ _ h1
      cases y with
      | false =>
        simp only [optCodec, h1, Option.some.injEq, Prod.mk.injEq] at hd
        obtain ⟨rfl, rfl⟩ := hd
        exact ⟨trivial, rfl⟩
      | true =>
        simp only [optCodec, h1, Option.map_eq_some_iff, Prod.mk.injEq, Prod.exists] at hd
        obtain ⟨x, r', hd, rfl, rfl⟩ := hd
        obtain ⟨hx, rfl⟩ := h.2 _ _ _ hd
        exact ⟨hx, by simp [optCodec]⟩

theorem sound_uint : Sound (fun x => x < 2 ^ 64) (uintCodec 8) :=
  Sound.congr ⟨uint_faithful 8, uint_exact 8⟩ fun x => by rw [show (256 : ℕ) ^ 8 = 2 ^ 64 by norm_num]

/-- **C94** (field elements).  A field element is read back, and integers that are not reduced are refused. -/
theorem C94_field (p : ℕ) [Fact p.Prime] : Sound (fun _ => True) (fieldCodec p) := by
  have hp : p < 256 ^ ((bits p + 7) / 8) := by
    have h1 : p < 2 ^ bits p := Nat.lt_size_self p
    refine lt_of_lt_of_le h1 ?_
    rw [show (256 : ℕ) = 2 ^ 8 by norm_num, ← pow_mul]
    exact Nat.pow_le_pow_right (by norm_num) (by omega)
  have := Fact.out (p := p.Prime)
  haveI : NeZero p := ⟨this.ne_zero⟩
  constructor
  · intro x _ r
    have h := readExact_append (toLE ((bits p + 7) / 8) x.val) r
    rw [toLE_length] at h
    have hx := ZMod.val_lt x
    have h2 : leNat (toLE ((bits p + 7) / 8) x.val) = x.val := by
      rw [leNat_toLE]; exact Nat.mod_eq_of_lt (hx.trans hp)
    simp only [fieldCodec, h, h2, hx, if_true, ZMod.natCast_val, ZMod.cast_id', id_eq]
  · intro b x r hd
    refine ⟨trivial, ?_⟩
    cases h1 : readExact ((bits p + 7) / 8) b with
    | none => simp [fieldCodec, h1] at hd
    | some u =>
      obtain ⟨l, b'⟩ := u
      obtain ⟨hl, rfl⟩ := readExact_some h1
      simp only [fieldCodec, h1] at hd
      split at hd
      · rename_i hlt
        simp only [Option.some.injEq, Prod.mk.injEq] at hd
        obtain ⟨rfl, rfl⟩ := hd
        simp only [fieldCodec, ZMod.val_natCast, Nat.mod_eq_of_lt hlt]
        rw [toLE_leNat _ l hl.le]
        simp [hl]
      · cases hd

/-! ## Proofs -/

section
variable {VG : G → Prop} {VG2 : G2 → Prop} {cF : Codec F} {cG : Codec G} {cG2 : Codec G2}

theorem vec_all (l : List F) : VecOf (fun _ => True) l ↔ l.length < 2 ^ 64 := by simp [VecOf]

theorem sound_evals (hF : Sound (fun _ => True) cF) : Sound EvalsFit (evalsCodec cF) :=
  (sound_struct (sound_pair (sound_vec hF) (sound_pair (sound_vec hF) hF)) _ _ (fun _ => rfl) (fun _ => rfl)).congr
    fun e => by simp [EvalsFit, vec_all]

theorem sound_lkEvals (hF : Sound (fun _ => True) cF) : Sound (fun _ => True) (lkEvalsCodec cF) :=
  (sound_struct (sound_pair hF (sound_pair hF (sound_pair hF (sound_pair hF (sound_pair hF (sound_pair hF
    (sound_pair hF (sound_pair hF (sound_pair hF (sound_pair hF (sound_pair hF (sound_pair hF (sound_pair hF
      (sound_pair hF hF)))))))))))))) _ _ (fun _ => rfl) (fun _ => rfl)).congr fun e => by simp

theorem sound_lkProof (hF : Sound (fun _ => True) cF) (hG : Sound VG cG) : Sound (LkFit VG) (lkProofCodec cF cG) :=
  (sound_struct (sound_pair (sound_vec hG) (sound_pair hG (sound_lkEvals hF))) _ _ (fun _ => rfl)
    (fun _ => rfl)).congr fun e => by simp [LkFit]

/-- **C94** (proofs).  A proof is read back from its bytes, whatever follows them, and bytes that are read as a proof
are the bytes of that proof, followed by what was not read. -/
theorem C94_proof (hF : Sound (fun _ => True) cF) (hG : Sound VG cG) : Sound (ProofFit VG) (proofCodec cF cG) :=
  (sound_struct (sound_pair (sound_vec hG) (sound_pair hG (sound_pair (sound_vec hG) (sound_pair hG (sound_pair hG
    (sound_pair (sound_evals hF) (sound_opt (sound_lkProof hF hG)))))))) _ _ (fun _ => rfl) (fun _ => rfl)).congr
    fun _ => ⟨fun ⟨a, b, c, d, e, f, g⟩ => ⟨a, b, c, d, e, f, g⟩, fun ⟨a, b, c, d, e, f, g⟩ => ⟨a, b, c, d, e, f, g⟩⟩

/-- **C94** (batch proofs).  The same for batch proofs. -/
theorem C94_batch_proof (hF : Sound (fun _ => True) cF) (hG : Sound VG cG) :
    Sound (BatchFit VG) (batchProofCodec cF cG) :=
  (sound_struct (sound_pair (sound_vec (sound_vec hG)) (sound_pair (sound_vec hG) (sound_pair
    (sound_vec (sound_evals hF)) (sound_pair (sound_vec (sound_opt (sound_lkProof hF hG))) (sound_pair (sound_vec hG)
      (sound_pair hG hG)))))) _ _ (fun _ => rfl) (fun _ => rfl)).congr
    fun _ => ⟨fun ⟨a, b, c, d, e, f, g⟩ => ⟨a, b, c, d, e, f, g⟩, fun ⟨a, b, c, d, e, f, g⟩ => ⟨a, b, c, d, e, f, g⟩⟩

/-! ## Keys -/

theorem sound_openKey (hG : Sound VG cG) (hG2 : Sound VG2 cG2) : Sound (OpenFit VG VG2) (openKeyCodec cG cG2) :=
  (sound_struct (sound_pair hG (sound_pair hG2 (sound_pair hG2 (sound_pair (sound_vec hG2) (sound_vec hG))))) _ _
    (fun _ => rfl) (fun _ => rfl)).congr
    fun _ => ⟨fun ⟨a, b, c, d, e⟩ => ⟨a, b, c, d, e⟩, fun ⟨a, b, c, d, e⟩ => ⟨a, b, c, d, e⟩⟩

theorem sound_lkVk (hG : Sound VG cG) : Sound (LkVkFit VG) (lkVkCodec cG) :=
  (sound_struct (sound_pair hG (sound_pair hG (sound_pair hG hG))) _ _ (fun _ => rfl) (fun _ => rfl)).congr
    fun _ => Iff.rfl

/-- **C94** (verifying keys).  The same for verifying keys. -/
theorem C94_verifying_key (hF : Sound (fun _ => True) cF) (hG : Sound VG cG) (hG2 : Sound VG2 cG2) :
    Sound (VkFit VG VG2) (vkCodec cF cG cG2) :=
  (sound_struct (sound_pair sound_uint (sound_pair sound_uint (sound_pair (sound_vec hG) (sound_pair (sound_vec hG)
    (sound_pair (sound_vec hF) (sound_pair (sound_openKey hG hG2) (sound_pair sound_bool
      (sound_opt (sound_lkVk hG))))))))) _ _ (fun _ => rfl) (fun _ => rfl)).congr
    fun _ => ⟨fun ⟨a, b, c, d, e, f, g⟩ => ⟨a, b, c, d, (vec_all _).2 e, f, trivial, g⟩,
      fun ⟨a, b, c, d, e, f, _, g⟩ => ⟨a, b, c, d, (vec_all _).1 e, f, g⟩⟩

theorem sound_lkPk (hF : Sound (fun _ => True) cF) : Sound LkPkFit (lkPkCodec cF) :=
  (sound_struct (sound_pair (sound_vec hF) (sound_pair (sound_vec hF) (sound_pair (sound_vec hF) (sound_vec hF)))) _ _
    (fun _ => rfl) (fun _ => rfl)).congr fun e => by simp [LkPkFit, vec_all]

/-- **C94** (proving keys).  The same for proving keys. -/
theorem C94_proving_key (hF : Sound (fun _ => True) cF) (hG : Sound VG cG) (hG2 : Sound VG2 cG2) :
    Sound (PkFit VG VG2) (pkCodec cF cG cG2) :=
  (sound_struct (sound_pair (sound_vec (sound_vec hF)) (sound_pair (sound_vec (sound_vec hF)) (sound_pair
    (sound_vec hG) (sound_pair (C94_verifying_key hF hG hG2) (sound_opt (sound_lkPk hF)))))) _ _ (fun _ => rfl)
    (fun _ => rfl)).congr
    fun _ => ⟨fun ⟨a, b, c, d, e⟩ => ⟨⟨a.1, fun l hl => (vec_all l).2 (a.2 l hl)⟩,
        ⟨b.1, fun l hl => (vec_all l).2 (b.2 l hl)⟩, c, d, e⟩,
      fun ⟨a, b, c, d, e⟩ => ⟨⟨a.1, fun l hl => (vec_all l).1 (a.2 l hl)⟩,
        ⟨b.1, fun l hl => (vec_all l).1 (b.2 l hl)⟩, c, d, e⟩⟩

end

/-- **C94** (no two meanings).  Values with a sound codec (all of the above) have different bytes, and the bytes of none
begin those of another. -/
theorem C94_prefix {V : X → Prop} {c : Codec X} (h : Sound V c) (x y : X) (hx : V x) (hy : V y) (r s : List Byte)
    (he : c.ser x ++ r = c.ser y ++ s) : x = y ∧ r = s := by
  have h1 := h.1 x hx r
  rw [he, h.1 y hy s] at h1
  simp only [Option.some.injEq, Prod.mk.injEq] at h1
  exact ⟨h1.1.symm, h1.2.symm⟩

/-! ## Proofs that no prover makes -/

section
variable [Field F] [DecidableEq F] [DecidableEq G] [AddCommGroup G] [Module F G] [AddCommGroup G2] [Module F G2]
  [AddCommGroup GT] [Module F GT] [DecidableEq GT]
variable {VG : G → Prop} {cF : Codec F} {cG : Codec G}

theorem firstAndLast_ok {d : Domain F} (h : Good d) (τ : F) : ∃ x, firstAndLast d τ = .ok x := by
  unfold firstAndLast
  split
  · exact ⟨_, rfl⟩
  · rename_i h1
    split
    · exact ⟨_, rfl⟩
    · rename_i h2
      split
      · exact ⟨_, rfl⟩
      · have ho : d.offset ^ d.size / d.offset ≠ 0 := div_ne_zero (pow_ne_zero _ h.off) h.off
        have e1 : τ - d.offset ≠ 0 := sub_ne_zero.2 h1
        have e2 : τ - d.offset * d.gen⁻¹ ≠ 0 := by rw [mul_comm]; exact sub_ne_zero.2 h2
        simp only [divP, h.off, if_false]
        rw [if_neg (mul_ne_zero (mul_ne_zero h.size_ne ho) e1), if_neg (mul_ne_zero (mul_ne_zero h.size_ne ho) e2)]
        exact ⟨_, rfl⟩

theorem evaluatePi_ok {d : Domain F} (h : Good d) (pi : List F) (merged : Bool)
    (hl : (if merged then pi.length / 2 else pi.length) ≤ d.size) (z : F) :
    ∃ v, evaluatePi d pi z merged = .ok v := by
  cases merged with
  | false => exact ⟨_, evaluatePi_plain h pi (by simpa using hl) z⟩
  | true =>
    simp only [if_true] at hl
    unfold evaluatePi
    simp only [if_true]
    rw [lagrangeRange_eq h (Nat.zero_le _) hl]
    simp only
    rw [if_neg (by omega), lagrangeRange_eq h (by omega) le_rfl]
    exact ⟨_, rfl⟩

theorem len4 {l : List X} (h : l.length = 4) : ∃ a b c d, l = [a, b, c, d] := by
  match l, h with
  | [a, b, c, d], _ => exact ⟨a, b, c, d, rfl⟩

theorem len5 {l : List X} (h : l.length = 5) : ∃ a b c d e, l = [a, b, c, d, e] := by
  match l, h with
  | [a, b, c, d, e], _ => exact ⟨a, b, c, d, e, rfl⟩

theorem len6 {l : List X} (h : l.length = 6) : ∃ a b c d e f, l = [a, b, c, d, e, f] := by
  match l, h with
  | [a, b, c, d, e, f], _ => exact ⟨a, b, c, d, e, f, rfl⟩

theorem len2 {l : List X} (h : 2 ≤ l.length) : ∃ a b m, l = a :: b :: m := by
  match l, h with
  | a :: b :: m, _ => exact ⟨a, b, m, rfl⟩

theorem prepare_turbo {d : Domain F} (hgood : Good d) {vk : VKey F G G2} {pi : List F} {b : Proof F G} (ch : Chal F)
    (hsize : vk.domSize = d.size) (hlk : vk.lookup = none) (hk : KeyShape vk) (hpi : pi.length = vk.numInputs)
    (hle : (if vk.merged then pi.length / 2 else pi.length) ≤ d.size) (hb : ProofShape vk b) :
    ∃ info : PcsInfo F G, prepare d [vk] [pi] b.toBatch ch = .ok info := by
  obtain ⟨h1, h2, h3, h4, h5, -⟩ := hb
  obtain ⟨hσ, -⟩ := hk
  simp only [wiresOf, hlk, Option.isSome_none, Bool.false_eq_true, if_false] at h1 h3 h4 h5 hσ
  obtain ⟨x, hfl⟩ := firstAndLast_ok hgood ch.ζ
  obtain ⟨y, hev⟩ := evaluatePi_ok hgood pi vk.merged hle ch.ζ
  obtain ⟨bw, bz, bq, bo, bs, ⟨ew, es, ez⟩, bl⟩ := b
  obtain ⟨vn, vi, vs, vq, vkk, vo, vm, vl⟩ := vk
  simp only [Option.isSome_eq_false_iff, Option.isNone_iff_eq_none] at hsize hlk hσ hpi h1 h2 h3 h4 h5 hev
  subst hlk h5
  obtain ⟨q, qs, rfl⟩ := List.exists_cons_of_ne_nil h2
  obtain ⟨a1, a2, a3, a4, a5, rfl⟩ := len5 h1
  obtain ⟨s1, s2, s3, s4, s5, rfl⟩ := len5 hσ
  obtain ⟨w1, w2, w3, w4, w5, rfl⟩ := len5 h3
  obtain ⟨t1, t2, t3, t4, rfl⟩ := len4 (Nat.succ.inj h4)
  simp [prepare, checkNumbers, Proof.toBatch, BProof.len, checkInstances, hpi, hsize, hfl, linPolyConst,
    alphaBases, basesLoop, constLoop, constInstance, hev, alphaPowers, aggregateComms, linScalarsAndBases, linLoop,
    linInstance, qScalars, aggLoop, aggInstance, addV, addUV, aggregateEvals, evalLoop, addEvals]

theorem prepare_ultra {d : Domain F} (hgood : Good d) {vk : VKey F G G2} {pi : List F} {b : Proof F G} (ch : Chal F)
    (hτ : ch.τ.isSome) (hsize : vk.domSize = d.size) (hlk : vk.lookup.isSome) (hk : KeyShape vk)
    (hpi : pi.length = vk.numInputs) (hle : (if vk.merged then pi.length / 2 else pi.length) ≤ d.size)
    (hb : ProofShape vk b) :
    ∃ info : PcsInfo F G, prepare d [vk] [pi] b.toBatch ch = .ok info := by
  obtain ⟨h1, h2, h3, h4, h5, h6⟩ := hb
  obtain ⟨hσ, hs'⟩ := hk
  have hs := hs' hlk
  clear hs'
  simp only [wiresOf, hlk, if_true] at h1 h3 h4 h5 hσ
  obtain ⟨x, hfl⟩ := firstAndLast_ok hgood ch.ζ
  obtain ⟨y, hev⟩ := evaluatePi_ok hgood pi vk.merged hle ch.ζ
  obtain ⟨τ, hτ⟩ := Option.isSome_iff_exists.1 hτ
  obtain ⟨bw, bz, bq, bo, bs, ⟨ew, es, ez⟩, bl⟩ := b
  obtain ⟨vn, vi, vs, vq, vkk, vo, vm, vl⟩ := vk
  simp only at hsize hlk hσ hpi h1 h2 h3 h4 h5 h6 hev hs
  obtain ⟨lv, rfl⟩ := Option.isSome_iff_exists.1 hlk
  obtain ⟨⟨lh, lz, le⟩, rfl⟩ := Option.isSome_iff_exists.1 h5
  obtain ⟨c1, c2, cs, rfl⟩ := len2 (h6 _ rfl)
  obtain ⟨q, qs, rfl⟩ := List.exists_cons_of_ne_nil h2
  obtain ⟨a1, a2, a3, a4, a5, a6, rfl⟩ := len6 h1
  obtain ⟨s1, s2, s3, s4, s5, s6, rfl⟩ := len6 hσ
  obtain ⟨w1, w2, w3, w4, w5, w6, rfl⟩ := len6 h3
  obtain ⟨t1, t2, t3, t4, t5, rfl⟩ := len5 (Nat.succ.inj h4)
  obtain ⟨c, hc⟩ : ∃ c, vq.getLast? = some c := ⟨_, List.getLast?_eq_some_getLast hs⟩
  simp [prepare, checkNumbers, Proof.toBatch, BProof.len, checkInstances, hpi, hsize, hfl, linPolyConst,
    alphaBases, basesLoop, constLoop, constInstance, hev, alphaPowers, aggregateComms, linScalarsAndBases, linLoop,
    linInstance, qScalars, aggLoop, aggInstance, addV, addUV, aggregateEvals, evalLoop, addEvals, linLookup, hτ,
    lookupOpenComms, lookupShiftedComms, qLookupComm, hc, LkEvals.evals, LkEvals.nextEvals]

/-- **C94** (proofs of the right shape).  On a proof with as many commitments and evaluations as the prover writes,
`verify` answers, whatever the points and values are, for keys with and without lookups, merged or not. -/
theorem C94_answer (newDom : ℕ → Option (Domain F)) (e : G →ₗ[F] G2 →ₗ[F] GT) (hash : List F → F)
    (oracle : List (Call F G G2) → F) (extra : Option (List ℕ)) (vk : VKey F G G2) (d : Domain F) (pi : List F)
    (b : Proof F G) (hd : newDom vk.domSize = some d) (hgood : Good d) (hsize : vk.domSize = d.size)
    (hk : KeyShape vk) (hpi : pi.length = vk.numInputs)
    (hle : (if vk.merged then pi.length / 2 else pi.length) ≤ d.size) (hb : ProofShape vk b) :
    ∃ answer, Plonk.verify newDom e hash oracle vk pi b extra = .ok answer := by
  have hpre : ∃ info : PcsInfo F G, prepare d [vk] [pi] b.toBatch (challenges oracle extra [vk] [pi] b.toBatch) =
      .ok info := by
    cases hlk : vk.lookup with
    | none => exact prepare_turbo hgood _ hsize hlk hk hpi hle hb
    | some l =>
      exact prepare_ultra hgood _ (by simp [challenges, askTau, ask, hlk]) hsize (by simp [hlk]) hk hpi hle hb
  obtain ⟨info, hinfo⟩ := hpre
  simp [Plonk.verify, Plonk.batchVerify, items, prepareItems, prepareItem, verifierDomain, hd, hinfo]

/-- **C94** (refuted: the verifier rejects malformed proofs with an error).  There are bytes that are read as a batch
proof and on which the verifier panics, for every key and public input that fit each other. -/
theorem C94_batch_panic_counterexample (hF : Sound (fun _ => True) cF) (hG : Sound VG cG) (h0 : VG 0)
    (newDom : ℕ → Option (Domain F)) (e : G →ₗ[F] G2 →ₗ[F] GT) (hash : List F → F)
    (chal : List (VKey F G G2) → List (List F) → BProof F G → Chal F) :
    ∃ bytes b, (batchProofCodec cF cG).de bytes = some (b, []) ∧
      ∀ (vk : VKey F G G2) (d : Domain F) (pi : List F), newDom vk.domSize = some d → pi.length = vk.numInputs →
        verifyBatch newDom e hash chal [vk] [pi] b = .error .panic := by
  refine ⟨(batchProofCodec cF cG).ser ⟨[], [0], [], [], [], 0, 0⟩, ⟨[], [0], [], [], [], 0, 0⟩, ?_, ?_⟩
  · have := (C94_batch_proof hF hG).1 ⟨[], [0], [], [], [], 0, 0⟩
      ⟨by simp [VecOf], by simp [VecOf, h0], by simp [VecOf], by simp [VecOf], by simp [VecOf], h0, h0⟩ []
    rwa [List.append_nil] at this
  · intro vk d pi hd hpi
    simp [verifyBatch, verifierDomain, hd, prepare, checkNumbers, BProof.len, checkInstances, hpi]

theorem divP_panic {a b : F} {e : VErr} (h : divP a b = .error e) : e = .panic := by
  unfold divP at h
  split at h
  · cases h
    rfl
  · cases h

theorem firstAndLast_panic {d : Domain F} {τ : F} {e : VErr} (h : firstAndLast d τ = .error e) : e = .panic := by
  unfold firstAndLast at h
  split at h
  · cases h
  · split at h
    · cases h
    · split at h
      · cases h
      · split at h
        · rename_i h1
          cases h
          exact divP_panic h1
        · split at h
          · cases h
          · rename_i h1
            cases h
            exact divP_panic h1
          · rename_i h1 _
            cases h
            exact divP_panic h1

/-- **C94** (refuted, single proofs).  There are bytes that are read as a proof, and `verify` panics on it for every key
without lookups and all public inputs that fit it. -/
theorem C94_panic_counterexample (hF : Sound (fun _ => True) cF) (hG : Sound VG cG) (h0 : VG 0)
    (newDom : ℕ → Option (Domain F)) (e : G →ₗ[F] G2 →ₗ[F] GT) (hash : List F → F)
    (oracle : List (Call F G G2) → F) (extra : Option (List ℕ)) :
    ∃ bytes b, (proofCodec cF cG).de bytes = some (b, []) ∧
      ∀ (vk : VKey F G G2) (d : Domain F) (pi : List F), newDom vk.domSize = some d → Good d → vk.domSize = d.size →
        vk.lookup = none → vk.merged = false → pi.length = vk.numInputs → pi.length ≤ d.size →
        Plonk.verify newDom e hash oracle vk pi b extra = .error .panic := by
  refine ⟨(proofCodec cF cG).ser ⟨[], 0, [], 0, 0, ⟨[], [], 0⟩, none⟩, ⟨[], 0, [], 0, 0, ⟨[], [], 0⟩, none⟩, ?_, ?_⟩
  · have := (C94_proof hF hG).1 ⟨[], 0, [], 0, 0, ⟨[], [], 0⟩, none⟩
      ⟨by simp [VecOf], h0, by simp [VecOf], h0, h0, by simp [EvalsFit], trivial⟩ []
    rwa [List.append_nil] at this
  · intro vk d pi hd hgood hsize hlk hm hpi hle
    have hpre : ∀ ch : Chal F, prepare d [vk] [pi] (Proof.toBatch ⟨[], 0, [], 0, 0, ⟨[], [], 0⟩, none⟩) ch =
        (.error .panic : Except VErr (PcsInfo F G)) := by
      intro ch
      have hpi' := evaluatePi_plain hgood pi hle ch.ζ
      cases hfl : firstAndLast d ch.ζ with
      | error e' =>
        simp [prepare, checkNumbers, Proof.toBatch, BProof.len, checkInstances, hpi, hlk, hsize, hfl,
          firstAndLast_panic hfl]
      | ok x =>
        simp [prepare, checkNumbers, Proof.toBatch, BProof.len, checkInstances, hpi, hlk, hsize, hfl, linPolyConst,
          alphaBases, basesLoop, constLoop, constInstance, hm, hpi', alphaPowers]
    simp [Plonk.verify, Plonk.batchVerify, items, prepareItems, prepareItem, verifierDomain, hd, hpre]

end

/-! ## Examples -/

local instance : Fact (Nat.Prime 193) := ⟨by decide +kernel⟩

/-- points as integers modulo 193 -/
theorem ex_sound : Sound (fun _ => True) (fieldCodec 193) := C94_field 193

/-- the bytes of a field element, and a refused one -/
example : (fieldCodec 193).ser 7 = [7] ∧ (fieldCodec 193).de [192, 5] = some (192, [5]) ∧
    (fieldCodec 193).de [193, 5] = none := by decide +kernel

/-- a proof with a lookup part is read back -/
example (l : LkProof (ZMod 193) (ZMod 193)) (h : l.h = [3, 4]) :
    let b : Proof (ZMod 193) (ZMod 193) := ⟨[1, 2], 3, [4], 5, 6, ⟨[7, 8], [9], 10⟩, some l⟩
    (proofCodec (fieldCodec 193) (fieldCodec 193)).de ((proofCodec (fieldCodec 193) (fieldCodec 193)).ser b ++ [1]) =
      some (b, [1]) :=
  (C94_proof ex_sound ex_sound).1 _
    ⟨by simp [VecOf], trivial, by simp [VecOf], trivial, trivial, by simp [EvalsFit], by simp [OptOf, LkFit, VecOf, h]⟩ _

/-- the bytes of a proof without wires -/
example : (proofCodec (fieldCodec 193) (fieldCodec 193)).ser ⟨[], 1, [2], 3, 4, ⟨[5], [], 6⟩, none⟩ =
    [0, 0, 0, 0, 0, 0, 0, 0, 1, 1, 0, 0, 0, 0, 0, 0, 0, 2, 3, 4, 1, 0, 0, 0, 0, 0, 0, 0, 5, 0, 0, 0, 0, 0, 0, 0, 0, 6,
      0] := by decide +kernel

/-- a domain of two points -/
theorem ex_good : Good (⟨1, 192, 1⟩ : Domain (ZMod 193)) where
  prim := IsPrimitiveRoot.mk_of_lt _ (by decide) (by decide) fun l h0 h1 => by
    have : l = 1 := by
      have : l < 2 := h1
      omega
    subst this
    decide
  off := by decide

/-- `verify` panics on a proof read from bytes, with a key for one public input -/
example (e : ZMod 193 →ₗ[ZMod 193] ZMod 193 →ₗ[ZMod 193] ZMod 193) (hash : List (ZMod 193) → ZMod 193)
    (oracle : List (Call (ZMod 193) (ZMod 193) (ZMod 193)) → ZMod 193) :
    ∃ bytes b, (proofCodec (fieldCodec 193) (fieldCodec 193)).de bytes = some (b, []) ∧
      Plonk.verify (fun n => if n = 2 then some ⟨1, 192, 1⟩ else none) e hash oracle
        ⟨2, 1, [1, 2], [3], [4, 5], ⟨1, 2, 3, [4], [5]⟩, false, none⟩ [7] b none = .error .panic := by
  obtain ⟨bytes, b, h1, h2⟩ := C94_panic_counterexample ex_sound ex_sound trivial
    (fun n => if n = 2 then some ⟨1, 192, 1⟩ else none) e hash oracle none
  exact ⟨bytes, b, h1, h2 _ ⟨1, 192, 1⟩ [7] rfl ex_good rfl rfl rfl rfl (by decide)⟩

/-- `verify` answers on a proof of the right shape -/
example (e : ZMod 193 →ₗ[ZMod 193] ZMod 193 →ₗ[ZMod 193] ZMod 193) (hash : List (ZMod 193) → ZMod 193)
    (oracle : List (Call (ZMod 193) (ZMod 193) (ZMod 193)) → ZMod 193) (ev : LkEvals (ZMod 193)) :
    ∃ answer, Plonk.verify (fun n => if n = 2 then some ⟨1, 192, 1⟩ else none) e hash oracle
        ⟨2, 1, [1, 2, 3, 4, 5, 6], [3], [4, 5], ⟨1, 2, 3, [4], [5]⟩, false, some ⟨1, 2, 3, 4⟩⟩ [7]
        ⟨[1, 2, 3, 4, 5, 6], 7, [8], 9, 10, ⟨[1, 2, 3, 4, 5, 6], [1, 2, 3, 4, 5], 6⟩, some ⟨[1, 2], 3, ev⟩⟩ none =
      .ok answer :=
  C94_answer _ e hash oracle none _ ⟨1, 192, 1⟩ [7] _ rfl ex_good rfl ⟨rfl, fun _ => by simp⟩ rfl (by decide)
    ⟨rfl, by simp, rfl, rfl, rfl, fun l hl => by cases hl; exact le_rfl⟩

/-- a verifying key is read back -/
example : let v : VKey (ZMod 193) (ZMod 193) (ZMod 193) :=
      ⟨8, 1, [1, 2], [3], [4, 5], ⟨1, 2, 3, [4], [5]⟩, true, some ⟨1, 2, 3, 4⟩⟩
    (vkCodec (fieldCodec 193) (fieldCodec 193) (fieldCodec 193)).de
      ((vkCodec (fieldCodec 193) (fieldCodec 193) (fieldCodec 193)).ser v) = some (v, []) := by
  intro v
  have := (C94_verifying_key ex_sound ex_sound ex_sound).1 v
    ⟨by decide, by decide, by simp [v, VecOf], by simp [v, VecOf], by decide,
      ⟨trivial, trivial, trivial, by simp [v, VecOf], by simp [v, VecOf]⟩, by simp [v, OptOf, LkVkFit]⟩ []
  rwa [List.append_nil] at this

end Verif.Props.PlonkSerde
