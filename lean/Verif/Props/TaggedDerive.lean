import Verif.Sig.TaggedDerive
import Verif.Props.Tagged
import Verif.Props.CryptoSerde

/-!
# C96: text made by `#[tagged(…)]`
-/

namespace Verif.Props.TaggedDerive

open Verif.Conv Verif.Sig.Tagged Verif.Props.Tagged Verif.Props.MerkleSerde Verif.Sig.Serde Verif.Plonk.Serde
open Verif.Props.PlonkSerde (Sound C94_field C94_proof C94_batch_proof ProofFit BatchFit)
open Verif.Props.CryptoSerde (C95_signature)
open Verif.Merkle.Serde (Codec)

variable {X : Type}

/-- text and values of a type belong together: the text of each value in `V` is read back, and a text that is read as a value
is the text of its bytes, with the tag, and possibly of further bytes behind them -/
def TextOf (crc : List Char → List Byte → Byte) (tag : List Char) (V : X → Prop) (c : Codec X) : Prop :=
  (∀ x, V x → ∃ s, deriveDisplay crc tag c x = .ok s ∧ deriveParse crc tag c s = .ok x) ∧
    ∀ s x, deriveParse crc tag c s = .ok x → V x ∧ ∃ extra, s = display crc ⟨tag, c.ser x ++ extra⟩

/-- **C96** (derived text).  Any type whose bytes mean one value, with any valid tag. -/
theorem C96_derived (crc : List Char → List Byte → Byte) (tag : List Char) (ht : safeTag tag = true) {V : X → Prop}
    {c : Codec X} (hc : Sound V c) : TextOf crc tag V c := by
  constructor
  · intro x hx
    have hn : new tag (c.ser x) = .ok ⟨tag, c.ser x⟩ := by simp only [new]; rw [if_pos ht]
    refine ⟨display crc ⟨tag, c.ser x⟩, ?_, ?_⟩
    · simp only [deriveDisplay, deriveTo]; rw [hn]; rfl
    · have h1 := hc.1 x hx []
      rw [List.append_nil] at h1
      simp only [deriveParse]
      rw [((C96_text crc).1 _ _ _ hn).2]
      simp [deriveFrom, h1]
  · intro s x h
    simp only [deriveParse] at h
    split at h
    · simp at h
    · rename_i t hp
      simp only [deriveFrom] at h
      split at h
      · simp at h
      · rename_i htag
        split at h
        · simp at h
        · rename_i y r hd
          simp only [Except.ok.injEq] at h
          subst h
          obtain ⟨hv, hb⟩ := hc.2 _ _ _ hd
          refine ⟨hv, r, ?_⟩
          rw [← ((C96_text crc).2 _ _ hp).1, ← hb, ← not_not.1 htag]

/-- **C96** (derived text of the types).  Schnorr signatures, Plonk proofs and batch proofs, Merkle proofs. -/
theorem C96_types (crc : List Char → List Byte → Byte) (tag : List Char) (ht : safeTag tag = true) {F G A T : Type}
    {VG : G → Prop} {VA : A → Prop} {VT : T → Prop} {cF : Codec F} {cG : Codec G} {cA : Codec A} {cT : Codec T} (r : ℕ)
    [Fact r.Prime] (hF : Sound (fun _ => True) cF) (hG : Sound VG cG) (hA : Sound VA cA) (hT : Sound VT cT) :
    TextOf crc "SCHNORR_SIG".toList (fun x => VA x.R) (signatureCodec r cA) ∧
      TextOf crc "SCHNORR_VER_KEY".toList VA cA ∧
      TextOf crc tag (ProofFit VG) (proofCodec cF cG) ∧
      TextOf crc tag (BatchFit VG) (batchProofCodec cF cG) ∧
      TextOf crc "MERKLE_PROOF".toList (VecOf (VecOf VT)) (Verif.Merkle.Serde.proofCodec cT) ∧
      TextOf crc "MERKLE_RANGE_PROOF".toList (RangeOf VT) (Verif.Merkle.Serde.rangeProofCodec cT) :=
  ⟨C96_derived crc _ (by decide +kernel) (C95_signature r hA), C96_derived crc _ (by decide +kernel) hA,
    C96_derived crc _ ht (C94_proof hF hG), C96_derived crc _ ht (C94_batch_proof hF hG),
    C96_derived crc _ (by decide +kernel) (C93_proof hT.1 hT.2),
    C96_derived crc _ (by decide +kernel) (C93_range_proof hT.1 hT.2)⟩

/-- **C96** (counterexample: one text per value).  Bytes behind the value are ignored: for every value and all bytes there is
a text with them that is read as the value, and texts with different bytes differ. -/
theorem C96_derived_counterexample (crc : List Char → List Byte → Byte) (tag : List Char) (ht : safeTag tag = true)
    {V : X → Prop} {c : Codec X} (hc : Sound V c) (x : X) (hx : V x) :
    ∃ text : List Byte → List Char, Function.Injective text ∧ deriveDisplay crc tag c x = .ok (text []) ∧
      ∀ extra, deriveParse crc tag c (text extra) = .ok x := by
  have hn : ∀ v, new tag v = .ok ⟨tag, v⟩ := fun v => by simp only [new]; rw [if_pos ht]
  have hp : ∀ v, parse crc (display crc ⟨tag, v⟩) = .ok ⟨tag, v⟩ := fun v => ((C96_text crc).1 _ _ _ (hn v)).2
  refine ⟨fun e => display crc ⟨tag, c.ser x ++ e⟩, ?_, ?_, ?_⟩
  · intro e e' h
    have h1 := hp (c.ser x ++ e)
    simp only at h
    rw [h, hp] at h1
    simp only [Except.ok.injEq, TB64.mk.injEq, true_and] at h1
    exact (List.append_cancel_left h1).symm
  · simp only [deriveDisplay, deriveTo, List.append_nil]; rw [hn]; rfl
  · intro e
    simp only [deriveParse]
    rw [hp]
    simp [deriveFrom, hc.1 x hx e]

/-! ## Examples -/

instance : Fact (Nat.Prime 193) := ⟨by norm_num⟩

/-- a verification key of one byte: read back, another tag and a number that is not reduced are refused, a byte behind it is
ignored -/
example : deriveDisplay toyCrc "SCHNORR_VER_KEY".toList (fieldCodec 193) 7 = .ok "SCHNORR_VER_KEY~Bw4".toList ∧
    deriveParse toyCrc "SCHNORR_VER_KEY".toList (fieldCodec 193) "SCHNORR_VER_KEY~Bw4".toList = .ok 7 ∧
    deriveParse toyCrc "SCHNORR_VER_KEY".toList (fieldCodec 193) "BLS_VER_KEY~Bw4".toList = .error .invalidTag ∧
    deriveParse toyCrc "SCHNORR_VER_KEY".toList (fieldCodec 193) "SCHNORR_VER_KEY~wcg".toList = .error .invalidData ∧
    deriveParse toyCrc "SCHNORR_VER_KEY".toList (fieldCodec 193) "SCHNORR_VER_KEY~BwAO".toList = .ok 7 := by
  decide +kernel

/-- signatures with `R` in a group of order 193 -/
example : TextOf toyCrc "SCHNORR_SIG".toList (fun _ => True) (signatureCodec 193 (fieldCodec 193)) :=
  C96_derived toyCrc _ (by decide +kernel) (C95_signature 193 (C94_field 193))

end Verif.Props.TaggedDerive
