import Verif.Util.Conversion
import Mathlib.GroupTheory.OrderOfElement

/-!
# Model of `elgamal/src/lib.rs`

* The base field is any commutative ring `F` here; the scalar field is `ZMod r`; the curve is an
  additive commutative group `A` and `point * scalar` is `scalar.val • point`.
* A Rescue state is a list of four field elements. The Rescue permutation, key schedule and keyed
  permutation are parameters (`eval` and `prp`).
* `into_affine` is `coords`; `Affine::new` is `ofCoords`, which is `none` where Rust panics (the
  point is not on the curve or not in the prime order subgroup).
-/

namespace Verif.ElGamal

/-- `STATE_SIZE` of Rescue -/
def stateSize : ℕ := 4

structure Params (F A : Type) where
  gen : A
  coords : A → F × F
  ofCoords : F → F → Option A
  /-- `Permutation::default().eval` -/
  eval : List F → List F
  /-- `prp.prp_with_round_keys(&prp.key_schedule(key), ·)` -/
  prp : List F → List F → List F

inductive Err where
  /-- `ParameterError` -/
  | parameter
  | panic
deriving DecidableEq

inductive Direction where
  | encrypt
  | decrypt
deriving DecidableEq

structure KeyPair (r : ℕ) (A : Type) where
  enc : A
  dec : ZMod r

structure Ciphertext (F A : Type) where
  ephemeral : A
  data : List F

variable {F A : Type} [CommRing F] [AddCommGroup A] {r : ℕ}

/-- `compute_len_to_next_multiple`, `lib.rs:369-375` -/
def lenToNextMultiple (len multiple : ℕ) : ℕ :=
  if len % multiple = 0 then len else len + multiple - len % multiple

/-- `pad_with_zeros`, `lib.rs:362-366` (`Vec::resize`) -/
def padWithZeros (v : List F) (multiple : ℕ) : List F :=
  let newLen := lenToNextMultiple v.length multiple
  v.take newLen ++ List.replicate (newLen - v.length) 0

/-- the closure `round_fn`, `lib.rs:325-341` (the data chunk and the stream are zipped) -/
def roundFn (P : Params F A) (key : List F) (nonce : F) (d : Direction) (idx : ℕ)
    (chunk : List F) : List F :=
  let stream := P.prp key [nonce + (idx : F), 0, 0, 0]
  List.zipWith (fun o s => match d with
    | .encrypt => o + s
    | .decrypt => o - s) chunk stream ++ chunk.drop stream.length

/-- `chunks_exact_mut(STATE_SIZE).enumerate().for_each(round_fn)`, `lib.rs:342-356`, by recursion
on the number of full chunks left -/
def streamLoop (P : Params F A) (key : List F) (nonce : F) (d : Direction) :
    ℕ → ℕ → List F → List F
  | 0, _, out => out
  | n + 1, idx, out =>
    roundFn P key nonce d idx (out.take stateSize) ++
      streamLoop P key nonce d n (idx + 1) (out.drop stateSize)

/-- `apply_counter_mode_stream`, `lib.rs:309-359` -/
def applyStream (P : Params F A) (key data : List F) (nonce : F) (d : Direction) : List F :=
  let output := padWithZeros data stateSize
  let output := streamLoop P key nonce d (output.length / stateSize) 0 output
  output.take data.length

/-- `point * scalar` -/
def mul (X : A) (k : ZMod r) : A := k.val • X

/-- `impl From<&DecKey<P>> for EncKey<P>`, `lib.rs:282-291`, and `From<DecKey<P>> for KeyPair<P>`,
`lib.rs:193-201` -/
def keyPairOf (P : Params F A) (dec : ZMod r) : KeyPair r A := ⟨mul P.gen dec, dec⟩

/-- `compute_cipher_text_from_ephemeral_key_pair`, `lib.rs:220-242` -/
def computeCiphertext (P : Params F A) (encKey : A) (eph : KeyPair r A) (msg : List F) :
    Ciphertext F A :=
  let shared := mul encKey eph.dec
  let key := P.eval [(P.coords shared).1, (P.coords shared).2, 0, 0]
  ⟨eph.enc, applyStream P key msg 0 .encrypt⟩

/-- `deterministic_encrypt`, `lib.rs:246-249`; `encrypt`, `lib.rs:252-259`, is the same with a
sampled `rand` -/
def encrypt (P : Params F A) (encKey : A) (rand : ZMod r) (msg : List F) : Ciphertext F A :=
  computeCiphertext P encKey (keyPairOf P rand) msg

/-- `DecKey::decrypt`, `lib.rs:268-279`, `KeyPair::decrypt` -/
def decrypt (P : Params F A) (kp : KeyPair r A) (c : Ciphertext F A) : List F :=
  let shared := mul c.ephemeral kp.dec
  let key := P.eval [(P.coords shared).1, (P.coords shared).2, 0, 0]
  applyStream P key c.data 0 .decrypt

/-- `Ciphertext::to_scalars`, `lib.rs:133-140` -/
def toScalars (P : Params F A) (c : Ciphertext F A) : List F :=
  [(P.coords c.ephemeral).1, (P.coords c.ephemeral).2] ++ c.data

/-- `Ciphertext::from_scalars`, `lib.rs:143-157` -/
def fromScalars (P : Params F A) (scalars : List F) : Except Err (Ciphertext F A) :=
  match scalars with
  | x :: y :: data =>
    match P.ofCoords x y with
    | none => .error .panic
    | some k => .ok ⟨k, data⟩
  | _ => .error .parameter

end Verif.ElGamal
