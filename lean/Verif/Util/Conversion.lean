import Mathlib.Data.ZMod.Basic
import Mathlib.Data.Nat.Size
import Mathlib.Tactic.Ring

/-!
# Model of `utilities/src/conversion.rs`

* A byte is `Fin 256`; a prime field with modulus `p` is `ZMod p`; an element of an extension field
  of degree `k` is the list of its `k` coordinates over the prime field (this is what
  `from_base_prime_field_elems` and `to_base_prime_field_elements` of arkworks convert to).
* `into_bigint().to_bytes_le()` is the little endian list of `8 * limbs p` bytes, where arkworks
  stores the representative in `limbs p = ⌈bits / 64⌉` 64-bit words.
* `usize` is 64 bits wide.
* A failed assertion, `expect` or checked operation is an explicit `Panic` value.
-/

namespace Verif.Conv

inductive Panic where
  | modulusTooSmall
  | overflow
  | badElem
  | resultLen
  | primeBytesLen
  | capacity
  | maskSizes
  | reduced
  | slice
deriving DecidableEq

abbrev Byte := Fin 256

/-- integer with the given little endian bytes -/
def leNat : List Byte → ℕ
  | [] => 0
  | b :: bs => b.val + 256 * leNat bs

/-- the low `n` bytes of `v`, little endian -/
def toLE : ℕ → ℕ → List Byte
  | 0, _ => []
  | n + 1, v => ⟨v % 256, Nat.mod_lt _ (by norm_num)⟩ :: toLE n (v / 256)

/-- `MODULUS_BIT_SIZE` -/
def bits (p : ℕ) : ℕ := Nat.size p

/-- number of 64 bit words of the `BigInt` of a prime field (arkworks `MontConfig` derive) -/
def limbs (p : ℕ) : ℕ := (bits p + 63) / 64

/-- `x.into_bigint().to_bytes_le()` -/
def toBytesLE {p : ℕ} (x : ZMod p) : List Byte := toLE (8 * limbs p) x.val

/-- `PrimeField::from_le_bytes_mod_order` -/
def fromLeBytesModOrder (p : ℕ) (bs : List Byte) : ZMod p := (leNat bs : ZMod p)

/-! ## `conversion.rs:18-100`: conversions between prime fields -/

/-- `fr_to_fq`, `conversion.rs:21-37` (scalar field `r`, base field `q`) -/
def frToFq {r : ℕ} (q : ℕ) (x : ZMod r) : ZMod q := fromLeBytesModOrder q (toBytesLE x)

/-- `fq_to_fr`, `conversion.rs:42-48` -/
def fqToFr {q : ℕ} (r : ℕ) (x : ZMod q) : ZMod r := fromLeBytesModOrder r (toBytesLE x)

/-- `fq_to_fr_with_mask`, `conversion.rs:53-62` (from `p` to `t`) -/
def fqToFrWithMask {p : ℕ} (t : ℕ) (x : ZMod p) : Except Panic (ZMod t) :=
  if bits t < bits p then
    let length := bits t / 8
    if (toBytesLE x).length < length then .error .slice
    else .ok (fromLeBytesModOrder t ((toBytesLE x).take length))
  else .error .maskSizes

/-- `field_switching`, `conversion.rs:67-82` -/
def fieldSwitching {p : ℕ} (t : ℕ) (x : ZMod p) : Except Panic (ZMod t) :=
  let bytes := toBytesLE x
  let y := fromLeBytesModOrder t bytes
  let bytesRec := toBytesLE y
  let length := min bytes.length bytesRec.length
  if bytesRec.take length = bytes.take length then .ok y else .error .reduced

/-- `hash_to_field`, `conversion.rs:86-100`; `sha` is SHA-512 (64 output bytes) -/
def hashToField (p : ℕ) (sha : List Byte → List Byte) (bs : List Byte) : Except Panic (ZMod p) :=
  let randByteLen := (bits p + 7) / 8 + 128 / 8
  let out := sha bs
  if out.length < randByteLen then .error .slice
  else .ok (fromLeBytesModOrder p (out.take randByteLen))

/-! ## `conversion.rs:102-303`: byte strings and field elements -/

/-- `compile_time_checks`, `conversion.rs:285-303`: bytes per prime field element and bytes per
field element for a field of degree `k` over the prime field. -/
def compileTimeChecks (p k : ℕ) : Except Panic (ℕ × ℕ) :=
  if 64 < bits p then
    let pbl := (bits p - 1) / 8
    if pbl * k < 2 ^ 64 then .ok (pbl, pbl * k) else .error .overflow
  else .error .modulusTooSmall

/-- `slice.chunks(k)`, by recursion on a bound for the number of chunks -/
def chunksAux {α : Type} : ℕ → ℕ → List α → List (List α)
  | 0, _, _ => []
  | _ + 1, _, [] => []
  | n + 1, k, a :: l => (a :: l).take k :: chunksAux n k ((a :: l).drop k)

def chunks {α : Type} (k : ℕ) (l : List α) : List (List α) := chunksAux l.length k l

/-- the closure building one field element, `conversion.rs:153-164`;
`from_base_prime_field_elems` fails unless it is given exactly `k` coordinates -/
def mkElem (p k pbl : ℕ) (c : List Byte) : Except Panic (List (ZMod p)) :=
  let coords := (chunks pbl c).map (fromLeBytesModOrder p) ++
    List.replicate (k - (c.length - 1) / pbl - 1) 0
  if coords.length = k then .ok coords else .error .badElem

/-- `F::from(n as u64)` in a field of degree `k` -/
def ofU64 (p k n : ℕ) : List (ZMod p) := (n : ZMod p) :: List.replicate (k - 1) 0

/-- `bytes_to_field_elements`, `conversion.rs:131-178` -/
def bytesToFieldElements (p k : ℕ) (bytes : List Byte) : Except Panic (List (List (ZMod p))) :=
  match compileTimeChecks p k with
  | .error e => .error e
  | .ok (pbl, fbl) =>
    if bytes = [] then .ok []
    else if 2 ^ 64 ≤ fbl + bytes.length then .error .overflow
    else
      let resultLen := (fbl + bytes.length - 1) / fbl + 1
      match (chunks fbl bytes).mapM (mkElem p k pbl) with
      | .error e => .error e
      | .ok elems =>
        let result := ofU64 p k bytes.length :: elems
        if result.length ≠ resultLen then .error .resultLen else .ok result

/-- the bytes of one prime field element, `conversion.rs:245-256`: all but the last byte, with
the assertion on their number -/
def primeBytes {p : ℕ} (pbl : ℕ) (x : ZMod p) : Except Panic (List Byte) :=
  let b := (toBytesLE x).dropLast
  if b.length = pbl then .ok b else .error .primeBytesLen

/-- the inner loop over the coordinates of one element, `conversion.rs:244-257` -/
def elemBytesM {p : ℕ} (pbl : ℕ) (e : List (ZMod p)) : Except Panic (List Byte) :=
  match e.mapM (primeBytes pbl) with
  | .error e => .error e
  | .ok ps => .ok ps.flatten

/-- `bytes_from_field_elements`, `conversion.rs:189-270` -/
def bytesFromFieldElements (p k : ℕ) (elems : List (List (ZMod p))) : Except Panic (List Byte) :=
  match compileTimeChecks p k with
  | .error e => .error e
  | .ok (pbl, fbl) =>
    match elems with
    | [] => .ok []
    | [] :: _ => .error .badElem
    | (c0 :: _) :: elems =>
      if (toBytesLE c0).length < 8 then .error .slice
      else
        let resultLen := leNat ((toBytesLE c0).take 8)
        if 2 ^ 64 ≤ fbl * elems.length then .error .overflow
        else
          let capacity := fbl * elems.length
          let resultLen := min resultLen capacity
          match elems.mapM (elemBytesM pbl) with
          | .error e => .error e
          | .ok parts =>
            let result := parts.flatten
            if result.length ≠ capacity then .error .capacity else .ok (result.take resultLen)

/-! ## Lemmas -/

theorem toLE_length (n v : ℕ) : (toLE n v).length = n := by
  induction n generalizing v with
  | zero => rfl
  | succ n ih => simp [toLE, ih]

theorem toBytesLE_length {p : ℕ} (x : ZMod p) : (toBytesLE x).length = 8 * limbs p := toLE_length _ _

theorem leNat_lt (l : List Byte) : leNat l < 256 ^ l.length := by
  induction l with
  | nil => simp [leNat]
  | cons b l ih =>
    rw [leNat, List.length_cons, pow_succ]
    have := b.isLt
    omega

theorem leNat_toLE (n v : ℕ) : leNat (toLE n v) = v % 256 ^ n := by
  induction n generalizing v with
  | zero => simp [toLE, leNat, Nat.mod_one]
  | succ n ih =>
    rw [toLE, leNat, ih, pow_succ, mul_comm (256 ^ n) 256, Nat.mod_mul]

theorem toLE_take (n k v : ℕ) (h : k ≤ n) : (toLE n v).take k = toLE k v := by
  induction n generalizing k v with
  | zero => obtain rfl : k = 0 := by omega
            rfl
  | succ n ih =>
    cases k with
    | zero => rfl
    | succ k => simp only [toLE, List.take_succ_cons]; rw [ih _ _ (by omega)]

theorem toLE_zero (n : ℕ) : toLE n 0 = List.replicate n 0 := by
  induction n with
  | zero => rfl
  | succ n ih => simp only [toLE, Nat.zero_div, ih, List.replicate_succ]; rfl

theorem toLE_leNat (n : ℕ) (l : List Byte) (h : l.length ≤ n) :
    toLE n (leNat l) = l ++ List.replicate (n - l.length) 0 := by
  induction l generalizing n with
  | nil => simp [leNat, toLE_zero]
  | cons b l ih =>
    cases n with
    | zero => simp at h
    | succ n =>
      simp only [List.length_cons] at h
      simp only [leNat, toLE, List.length_cons, List.cons_append]
      have hb := b.isLt
      congr 1
      · apply Fin.ext; simp only; omega
      · rw [show (b.val + 256 * leNat l) / 256 = leNat l by omega, ih n (by omega)]
        congr 2; omega

theorem toLE_inj_of_eq (n u v : ℕ) (h : toLE n u = toLE n v) : u % 256 ^ n = v % 256 ^ n := by
  rw [← leNat_toLE, ← leNat_toLE, h]

theorem toLE_congr (n u v : ℕ) (h : u % 256 ^ n = v % 256 ^ n) : toLE n u = toLE n v := by
  have key : ∀ w, toLE n (w % 256 ^ n) = toLE n w := by
    induction n generalizing u v with
    | zero => intro w; rfl
    | succ n ih =>
      intro w
      have h1 : w % 256 ^ (n + 1) = w % 256 + 256 * (w / 256 % 256 ^ n) := by
        rw [pow_succ, mul_comm (256 ^ n) 256, Nat.mod_mul]
      simp only [toLE]
      congr 1
      · apply Fin.ext; simp only; rw [h1]; omega
      · rw [h1, show (w % 256 + 256 * (w / 256 % 256 ^ n)) / 256 = w / 256 % 256 ^ n by
          generalize w / 256 % 256 ^ n = z
          omega]
        exact ih 0 0 rfl (w / 256)
  rw [← key u, h, key]

theorem val_lt_bytes {p : ℕ} [NeZero p] (x : ZMod p) : x.val < 256 ^ (8 * limbs p) := by
  have h1 := ZMod.val_lt x
  have h2 : p < 2 ^ bits p := Nat.lt_size_self p
  have h3 : 2 ^ bits p ≤ 256 ^ (8 * limbs p) := by
    rw [show (256 : ℕ) = 2 ^ 8 by norm_num, ← pow_mul]
    refine Nat.pow_le_pow_right (by norm_num) ?_
    unfold limbs; omega
  omega

theorem leNat_toBytesLE {p : ℕ} [NeZero p] (x : ZMod p) : leNat (toBytesLE x) = x.val := by
  unfold toBytesLE
  rw [leNat_toLE, Nat.mod_eq_of_lt (val_lt_bytes x)]

/-! ### chunks -/

theorem chunksAux_fuel {α : Type} (k : ℕ) (hk : 0 < k) (n m : ℕ) (l : List α) (hn : l.length ≤ n)
    (hm : l.length ≤ m) : chunksAux n k l = chunksAux m k l := by
  induction n generalizing m l with
  | zero =>
    have : l = [] := List.length_eq_zero_iff.1 (by omega)
    subst this
    cases m <;> rfl
  | succ n ih =>
    cases l with
    | nil => cases m <;> rfl
    | cons a l =>
      cases m with
      | zero => simp at hm
      | succ m =>
        simp only [chunksAux]
        congr 1
        simp only [List.length_cons] at hn hm
        exact ih m _ (by simp; omega) (by simp; omega)

theorem chunks_nil {α : Type} (k : ℕ) : chunks k ([] : List α) = [] := rfl

theorem chunks_cons {α : Type} (k : ℕ) (hk : 0 < k) (l : List α) (hl : l ≠ []) :
    chunks k l = l.take k :: chunks k (l.drop k) := by
  obtain ⟨a, l, rfl⟩ := List.exists_cons_of_ne_nil hl
  unfold chunks
  rw [List.length_cons, chunksAux]
  congr 1
  refine chunksAux_fuel k hk _ _ _ ?_ (le_refl _)
  simp; omega

theorem chunks_induction {α : Type} (k : ℕ) (hk : 0 < k) (P : List α → Prop) (h0 : P [])
    (h1 : ∀ l, l ≠ [] → P (l.drop k) → P l) (l : List α) : P l := by
  induction hn : l.length using Nat.strong_induction_on generalizing l with
  | _ n ih =>
    by_cases hl : l = []
    · subst hl; exact h0
    · refine h1 l hl (ih (l.drop k).length ?_ _ rfl)
      have := List.length_pos_of_ne_nil hl
      simp; omega

theorem chunks_length {α : Type} (k : ℕ) (hk : 0 < k) (l : List α) :
    (chunks k l).length = (l.length + k - 1) / k := by
  refine chunks_induction k hk (fun l => (chunks k l).length = (l.length + k - 1) / k) ?_ ?_ l
  · rw [chunks_nil]
    rw [show (([] : List α).length + k - 1) = k - 1 by simp, Nat.div_eq_of_lt (by omega)]; rfl
  · intro l hl ih
    have hpos := List.length_pos_of_ne_nil hl
    rw [chunks_cons k hk l hl, List.length_cons, ih, List.length_drop]
    by_cases h : l.length ≤ k
    · rw [show l.length - k = 0 by omega, show (0 + k - 1) / k = 0 from
        Nat.div_eq_of_lt (by omega)]
      symm
      rw [Nat.div_eq_iff (by omega)]
      omega
    · have e : l.length + k - 1 = (l.length - k + k - 1) + k := by omega
      rw [e, Nat.add_div_right _ hk]

theorem chunks_mem {α : Type} (k : ℕ) (hk : 0 < k) (l : List α) :
    ∀ c ∈ chunks k l, c ≠ [] ∧ c.length ≤ k := by
  refine chunks_induction k hk (fun l => ∀ c ∈ chunks k l, c ≠ [] ∧ c.length ≤ k) ?_ ?_ l
  · intro c hc; rw [chunks_nil] at hc; simp at hc
  · intro l hl ih c hc
    rw [chunks_cons k hk l hl, List.mem_cons] at hc
    rcases hc with rfl | hc
    · refine ⟨?_, by simp⟩
      have := List.length_pos_of_ne_nil hl
      intro h
      have := congrArg List.length h
      rw [List.length_take, List.length_nil] at this
      omega
    · exact ih c hc

theorem chunks_flatMap (k : ℕ) (hk : 0 < k) (g : List Byte → List Byte)
    (hg : ∀ c, c ≠ [] → c.length ≤ k → g c = c ++ List.replicate (k - c.length) 0)
    (l : List Byte) : ∃ m, (chunks k l).flatMap g = l ++ List.replicate m 0 := by
  refine chunks_induction k hk (fun l => ∃ m, (chunks k l).flatMap g = l ++ List.replicate m 0)
    ?_ ?_ l
  · exact ⟨0, by simp [chunks_nil]⟩
  · rintro l hl ⟨m, ih⟩
    have hpos := List.length_pos_of_ne_nil hl
    rw [chunks_cons k hk l hl, List.flatMap_cons, ih]
    have hne : l.take k ≠ [] := by
      intro h
      have := congrArg List.length h
      rw [List.length_take, List.length_nil] at this
      omega
    rw [hg _ hne (by simp)]
    by_cases h : l.length ≤ k
    · refine ⟨(k - (l.take k).length) + m, ?_⟩
      rw [List.drop_eq_nil_of_le h, List.take_of_length_le h]
      simp [List.replicate_append_replicate]
    · refine ⟨m, ?_⟩
      rw [show k - (l.take k).length = 0 by simp; omega]
      rw [List.replicate_zero, List.append_nil, ← List.append_assoc, List.take_append_drop]

theorem flatMap_replicate_length {α : Type} (l : List α) (g : α → List Byte) (n : ℕ)
    (h : ∀ x ∈ l, (g x).length = n) : (l.flatMap g).length = n * l.length := by
  induction l with
  | nil => simp
  | cons a l ih =>
    rw [List.flatMap_cons, List.length_append, h a (by simp), ih (fun x hx => h x (by simp [hx])),
      List.length_cons]
    ring

theorem mapM_ok {α β ε : Type} (f : α → Except ε β) (g : α → β) (l : List α)
    (h : ∀ x ∈ l, f x = .ok (g x)) : l.mapM f = .ok (l.map g) := by
  induction l with
  | nil => rfl
  | cons a l ih =>
    rw [List.mapM_cons, h a (by simp), ih (fun x hx => h x (by simp [hx]))]; rfl

/-- the prime fields for which the assertion of `bytes_from_field_elements` holds: the top byte of
the multi-word representation is the only one dropped -/
def GoodField (p : ℕ) : Prop := 64 < bits p ∧ 8 * limbs p = (bits p - 1) / 8 + 1

/-- bytes of a field element, all coordinates -/
def elemBytes {p : ℕ} (pbl : ℕ) (e : List (ZMod p)) : List Byte :=
  e.flatMap (fun x => toLE pbl x.val)

theorem primeBytes_ok {p : ℕ} (hp : GoodField p) (x : ZMod p) :
    primeBytes ((bits p - 1) / 8) x = .ok (toLE ((bits p - 1) / 8) x.val) := by
  unfold primeBytes toBytesLE
  obtain ⟨_, h⟩ := hp
  have e : (toLE (8 * limbs p) x.val).dropLast = toLE ((bits p - 1) / 8) x.val := by
    rw [List.dropLast_eq_take, toLE_length, toLE_take _ _ _ (by omega), h]; rfl
  simp only [e, toLE_length]
  rw [if_pos trivial]

theorem pow_pbl_le {p : ℕ} (hp : 0 < bits p) : 256 ^ ((bits p - 1) / 8) ≤ p := by
  have h1 : 2 ^ (bits p - 1) ≤ p := by
    have : bits p - 1 < Nat.size p := by unfold bits at *; omega
    exact Nat.lt_size.1 this
  refine le_trans ?_ h1
  rw [show (256 : ℕ) = 2 ^ 8 by norm_num, ← pow_mul]
  exact Nat.pow_le_pow_right (by norm_num) (by omega)

theorem fromLe_val {p : ℕ} (hp : 0 < bits p) (c : List Byte)
    (hc : c.length ≤ (bits p - 1) / 8) : (fromLeBytesModOrder p c).val = leNat c := by
  unfold fromLeBytesModOrder
  have h1 := leNat_lt c
  have h2 : 256 ^ c.length ≤ 256 ^ ((bits p - 1) / 8) := Nat.pow_le_pow_right (by norm_num) hc
  exact ZMod.val_natCast_of_lt (lt_of_lt_of_le h1 (le_trans h2 (pow_pbl_le hp)))

theorem mkElem_ok {p : ℕ} (hp : 64 < bits p) (k : ℕ) (c : List Byte) (hc : c ≠ [])
    (hlen : c.length ≤ (bits p - 1) / 8 * k) :
    ∃ e, mkElem p k ((bits p - 1) / 8) c = .ok e ∧ e.length = k ∧
      elemBytes ((bits p - 1) / 8) e =
        c ++ List.replicate ((bits p - 1) / 8 * k - c.length) 0 := by
  set pbl := (bits p - 1) / 8 with hpbl
  have hpos : 0 < pbl := by omega
  have hc0 := List.length_pos_of_ne_nil hc
  have hdiv : (c.length + pbl - 1) / pbl = (c.length - 1) / pbl + 1 := by
    rw [show c.length + pbl - 1 = (c.length - 1) + pbl by omega, Nat.add_div_right _ hpos]
  have hlt : (c.length - 1) / pbl < k := by
    rw [Nat.div_lt_iff_lt_mul hpos, mul_comm]; omega
  have hl : ((chunks pbl c).map (fromLeBytesModOrder p) ++
      List.replicate (k - (c.length - 1) / pbl - 1) 0).length = k := by
    simp only [List.length_append, List.length_map, List.length_replicate,
      chunks_length pbl hpos, hdiv]
    omega
  refine ⟨_, by unfold mkElem; rw [if_pos hl], hl, ?_⟩
  have hbl : (elemBytes pbl ((chunks pbl c).map (fromLeBytesModOrder p) ++
      List.replicate (k - (c.length - 1) / pbl - 1) 0)).length = pbl * k := by
    unfold elemBytes
    rw [flatMap_replicate_length _ _ pbl (fun x _ => toLE_length _ _), hl]
  obtain ⟨m, hm⟩ := chunks_flatMap pbl hpos (fun ch => toLE pbl (fromLeBytesModOrder p ch).val)
    (by
      intro ch _ hch
      rw [fromLe_val (by omega) ch hch, toLE_leNat _ _ hch]) c
  have hz : ∀ n, (List.replicate n (0 : ZMod p)).flatMap (fun x => toLE pbl x.val) =
      List.replicate (pbl * n) 0 := by
    intro n
    induction n with
    | zero => rfl
    | succ n ih =>
      rw [List.replicate_succ, List.flatMap_cons, ih, ZMod.val_zero, toLE_zero,
        List.replicate_append_replicate]
      congr 1; ring
  have hfull : elemBytes pbl ((chunks pbl c).map (fromLeBytesModOrder p) ++
      List.replicate (k - (c.length - 1) / pbl - 1) 0) =
      c ++ List.replicate (m + pbl * (k - (c.length - 1) / pbl - 1)) 0 := by
    unfold elemBytes
    rw [List.flatMap_append, List.flatMap_map, hm, hz, List.append_assoc,
      List.replicate_append_replicate]
  rw [hfull] at hbl ⊢
  simp only [List.length_append, List.length_replicate] at hbl
  congr 2
  omega

theorem fromElems_ok {p k : ℕ} (hp : GoodField p) (hk : (bits p - 1) / 8 * k < 2 ^ 64)
    (c0 : ZMod p) (rest : List (ZMod p)) (elems : List (List (ZMod p)))
    (he : ∀ e ∈ elems, e.length = k) (hov : (bits p - 1) / 8 * k * elems.length < 2 ^ 64) :
    bytesFromFieldElements p k ((c0 :: rest) :: elems) =
      .ok ((elems.flatMap (elemBytes ((bits p - 1) / 8))).take
        (min (c0.val % 2 ^ 64) ((bits p - 1) / 8 * k * elems.length))) := by
  have h8 : 8 ≤ 8 * limbs p := by
    obtain ⟨h, _⟩ := hp
    unfold limbs; omega
  have hinner : ∀ e ∈ elems, elemBytesM ((bits p - 1) / 8) e =
      .ok (elemBytes ((bits p - 1) / 8) e) := by
    intro e _
    unfold elemBytesM elemBytes
    rw [mapM_ok _ _ _ (fun x _ => primeBytes_ok hp x)]
    rw [List.flatMap_def]
  have hlen : (elems.flatMap (elemBytes ((bits p - 1) / 8))).length =
      (bits p - 1) / 8 * k * elems.length := by
    refine flatMap_replicate_length _ _ _ fun e hee => ?_
    unfold elemBytes
    rw [flatMap_replicate_length _ _ _ (fun x _ => toLE_length _ _), he e hee]
  have hpr : leNat ((toBytesLE c0).take 8) = c0.val % 2 ^ 64 := by
    unfold toBytesLE
    rw [toLE_take _ _ _ h8, leNat_toLE]; norm_num
  have hct : compileTimeChecks p k = .ok ((bits p - 1) / 8, (bits p - 1) / 8 * k) := by
    unfold compileTimeChecks
    rw [if_pos hp.1]
    simp only
    rw [if_pos hk]
  unfold bytesFromFieldElements
  rw [hct]
  simp only
  rw [if_neg (by rw [toBytesLE_length]; omega), if_neg (by omega), mapM_ok _ _ _ hinner]
  simp only
  rw [← List.flatMap_def, if_neg (by rw [hlen]; simp), hpr]

theorem toElems_ok {p k : ℕ} (hp : 64 < bits p) (hk0 : 0 < k) (bytes : List Byte)
    (hne : bytes ≠ []) (hov : (bits p - 1) / 8 * k + bytes.length < 2 ^ 64) :
    ∃ elems, bytesToFieldElements p k bytes = .ok (ofU64 p k bytes.length :: elems) ∧
      elems.length = (bytes.length + (bits p - 1) / 8 * k - 1) / ((bits p - 1) / 8 * k) ∧
      (∀ e ∈ elems, e.length = k) ∧
      ∃ m, elems.flatMap (elemBytes ((bits p - 1) / 8)) = bytes ++ List.replicate m 0 := by
  set pbl := (bits p - 1) / 8 with hpbl
  have hpos : 0 < pbl := by omega
  have hfbl : 0 < pbl * k := Nat.mul_pos hpos hk0
  let mk : List Byte → List (ZMod p) := fun c =>
    match mkElem p k pbl c with
    | .ok e => e
    | .error _ => []
  have hmk : ∀ c, c ≠ [] → c.length ≤ pbl * k → mkElem p k pbl c = .ok (mk c) ∧
      (mk c).length = k ∧ elemBytes pbl (mk c) = c ++ List.replicate (pbl * k - c.length) 0 := by
    intro c h1 h2
    obtain ⟨e, he1, he2, he3⟩ := mkElem_ok hp k c h1 h2
    have : mk c = e := by simp only [mk]; rw [he1]
    rw [this]
    exact ⟨he1, he2, he3⟩
  have hmem := chunks_mem (pbl * k) hfbl bytes
  have hmapM : (chunks (pbl * k) bytes).mapM (mkElem p k pbl) =
      .ok ((chunks (pbl * k) bytes).map mk) :=
    mapM_ok _ _ _ fun c hc => (hmk c (hmem c hc).1 (hmem c hc).2).1
  refine ⟨(chunks (pbl * k) bytes).map mk, ?_, ?_, ?_, ?_⟩
  · have hct : compileTimeChecks p k = .ok (pbl, pbl * k) := by
      unfold compileTimeChecks
      rw [if_pos hp]
      simp only
      rw [← hpbl, if_pos (by omega)]
    unfold bytesToFieldElements
    rw [hct]
    simp only
    rw [if_neg hne, if_neg (by omega), hmapM]
    simp only
    rw [if_neg]
    simp [chunks_length _ hfbl, add_comm]
  · rw [List.length_map, chunks_length _ hfbl]
  · intro e he
    obtain ⟨c, hc, rfl⟩ := List.mem_map.1 he
    exact (hmk c (hmem c hc).1 (hmem c hc).2).2.1
  · rw [List.flatMap_map]
    exact chunks_flatMap (pbl * k) hfbl _ (fun c h1 h2 => (hmk c h1 h2).2.2) bytes

end Verif.Conv
