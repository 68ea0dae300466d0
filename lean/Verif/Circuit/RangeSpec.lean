import Verif.Circuit.ArithSpec
import Verif.Circuit.Bits

/-! # Specifications of `gadgets/range.rs` and `gadgets/ultraplonk/range.rs` -/

namespace Verif.Circuit

variable {p : ℕ} {α β : Type}

/-! ## decomposition -/

theorem decompLoop_spec (padded : List ℕ) (L1 : ℕ) (r : ZMod p) (n : ℕ) :
    ∀ (i acc : ℕ) {c : Circ p} (_ : WF c),
    (∀ v ∈ padded, v < c.numVars) → acc < c.numVars → 1 ≤ i → 3 * (i + n - 1) ≤ L1 →
    Spec (decompLoop padded L1 r n i acc) c True (fun v c' => v < c'.numVars)
      (fun v w => w v = r ^ (3 * n) * w acc + ∑ t ∈ Finset.range (3 * n),
        r ^ t * w (padded.getD (L1 - 3 * (i + n - 1) + t) 0)) := by
  induction n with
  | zero =>
    intro i acc c hc hp ha _ _
    unfold decompLoop
    exact Spec.pure hc ha (fun w _ _ => by simp)
  | succ n ih =>
    intro i acc c hc hp ha hi hL
    unfold decompLoop
    refine Spec.bind (lc_spec hc acc _ _ _ _ _ _ _) ?_ hc ?_
    · intro _ _ _
      simp [ha, getD_lt hc hp, -List.getD_eq_getElem?_getD]
    rintro v c1 e1 hv
    refine Spec.conseq e1.wf
      (ih (i + 1) v e1.wf (fun x hx => e1.lt (hp x hx)) hv (by omega) (by omega))
      (fun _ _ _ => trivial) (fun _ _ _ h => h) ?_
    intro u w _ _ h1 h2
    rw [h1, h2]
    rw [show 3 * (n + 1) = 3 * n + 3 by ring, Finset.sum_range_add]
    have k : ∀ t, L1 - 3 * (i + (n + 1) - 1) + t = L1 - 3 * (i + 1 + n - 1) + t := by
      intro t; congr 2; omega
    have k0 : L1 - 3 * (i + 1 + n - 1) + (3 * n + 0) = L1 - 3 * i := by omega
    have k1 : L1 - 3 * (i + 1 + n - 1) + (3 * n + 1) = L1 - 3 * i + 1 := by omega
    have k2 : L1 - 3 * (i + 1 + n - 1) + (3 * n + 2) = L1 - 3 * i + 2 := by omega
    simp only [k, Finset.sum_range_succ, Finset.sum_range_zero, k0, k1, k2]
    ring

theorem map_getD (l : List ℕ) (w : ℕ → ZMod p) (h0 : w 0 = 0) (t : ℕ) :
    (l.map w).getD t 0 = w (l.getD t 0) := by
  simp only [List.getD_eq_getElem?_getD, List.getElem?_map]
  cases l[t]? <;> simp [h0]

theorem decompositionGate_spec {c : Circ p} (hc : WF c) (chunks : List ℕ)
    (hv : ∀ v ∈ chunks, v < c.numVars) (a : ℕ) (r : ZMod p) :
    Spec (decompositionGate chunks a r) c
      (chunks ≠ [] ∧ a < c.numVars ∧ c.val a = horner r (chunks.map c.val)) (fun _ _ => True)
      (fun _ w => w a = horner r (chunks.map w)) := by
  unfold decompositionGate
  split
  · rename_i h; exact Spec.fail (fun hC => hC.1 h)
  rename_i hne
  obtain ⟨m, hm, hm1, hm2⟩ := nextMultiple_three (chunks.length - 1)
  refine Spec.liftE_bind hm ?_
  simp only
  have hp : ∀ v ∈ resizeZero chunks (3 * m + 1), v < c.numVars := resizeZero_lt hc hv _
  have hlen : 0 < chunks.length := List.length_pos_of_ne_nil hne
  have hn : (3 * m + 1) / 3 - 1 = m - 1 := by omega
  rw [hn]
  refine Spec.bind (decompLoop_spec _ (3 * m + 1 - 1) r (m - 1) 1 _ hc hp (getD_lt hc hp _)
    (le_refl _) (by omega)) (fun _ _ _ => trivial) hc ?_
  rintro acc c1 e1 hacc
  have halg : ∀ w : ℕ → ZMod p, w 0 = 0 →
      w acc = r ^ (3 * (m - 1)) * w ((resizeZero chunks (3 * m + 1)).getD (3 * m + 1 - 1) 0)
        + ∑ t ∈ Finset.range (3 * (m - 1)), r ^ t * w ((resizeZero chunks (3 * m + 1)).getD
          (3 * m + 1 - 1 - 3 * (1 + (m - 1) - 1) + t) 0) →
      r * (r * r) * w acc + r * r * w ((resizeZero chunks (3 * m + 1)).getD 2 0)
        + r * w ((resizeZero chunks (3 * m + 1)).getD 1 0)
        + 1 * w ((resizeZero chunks (3 * m + 1)).getD 0 0) = horner r (chunks.map w) := by
    intro w h0 hw
    rw [hw, horner_eq_sum r _ (3 * m + 1) (by simp; omega)]
    simp only [map_getD _ _ h0, resizeZero_getD]
    have hsplit : 3 * m + 1 = 3 + (3 * (m - 1) + 1) := by omega
    rw [show Finset.range (3 * m + 1) = Finset.range (3 + (3 * (m - 1) + 1)) by rw [← hsplit],
      Finset.sum_range_add, Finset.sum_range_succ (n := 3 * (m - 1))]
    have hidx : ∀ t, 3 * m + 1 - 1 - 3 * (1 + (m - 1) - 1) + t = 3 + t := by intro t; omega
    have hlast : 3 * m + 1 - 1 = 3 + 3 * (m - 1) := by omega
    simp only [hidx]
    simp only [hlast, Finset.sum_range_succ, Finset.sum_range_zero, mul_add, Finset.mul_sum]
    have : ∀ x, r * (r * r) * (r ^ x * w (chunks.getD (3 + x) 0))
        = r ^ (3 + x) * w (chunks.getD (3 + x) 0) := by intro x; ring
    simp only [this]
    ring
  refine Spec.conseq e1.wf (lcGate_spec e1.wf _ _ _ _ a _ _ _ _) ?_ (fun _ _ _ _ => trivial) ?_
  · rintro ⟨⟨_, ha, haeq⟩, hacc'⟩ h0 -
    have hp1 : ∀ v ∈ resizeZero chunks (3 * m + 1), v < c1.numVars := fun x hx => e1.lt (hp x hx)
    refine ⟨?_, ?_⟩
    · simp [hacc, getD_lt e1.wf hp1, e1.lt ha, -List.getD_eq_getElem?_getD]
    · rw [halg c1.val h0 hacc', e1.val a ha, haeq]
      congr 1
      apply List.map_congr_left
      intro x hx
      exact (e1.val x (hv x hx)).symm
  · intro _ w h0 _ h1 h2
    rw [h1, ← halg w h0 h2]

/-! ## bits -/

theorem createBits_spec [Fact p.Prime] (bs : List Bool) : ∀ {c : Circ p} (_ : WF c),
    Spec (createBits bs) c True
      (fun vs c' => vs.length = bs.length ∧ (∀ v ∈ vs, v < c'.numVars) ∧
        vs.map c'.val = bs.map boolF)
      (fun vs w => ∀ v ∈ vs, w v = 0 ∨ w v = 1) := by
  induction bs with
  | nil =>
    intro c hc
    exact Spec.pure hc (by simp) (fun w _ _ => by simp)
  | cons b bs ih =>
    intro c hc
    unfold createBits
    refine Spec.bind (createBooleanVariable_spec hc b) (fun h _ _ => h) hc ?_
    rintro v c1 e1 ⟨hv, hb⟩
    refine Spec.bind (ih e1.wf) (fun _ _ _ => trivial) e1.wf ?_
    rintro vs c2 e2 ⟨hl, hvs, hbs⟩
    refine Spec.pure e2.wf ?_ ?_
    · refine ⟨by simp [hl], ?_, ?_⟩
      · intro x hx
        rcases List.mem_cons.1 hx with rfl | hx
        · exact e2.lt hv
        · exact hvs x hx
      · simp [hbs, e2.val v hv, hb]
    · intro w _ _ h1 h2 x hx
      rcases List.mem_cons.1 hx with rfl | hx
      · exact h2
      · exact h1 x hx

/-- one step of the canonical check -/
theorem canonStep_spec [Fact p.Prime] {c : Circ p} (hc : WF c) (cur na : ℕ) (q : Bool) :
    Spec (if q then logicOr cur na else logicAnd cur na) c
      (cur < c.numVars ∧ na < c.numVars) (fun v c' => v < c'.numVars)
      (fun v w => w v = if q then w cur + w na - w cur * w na else w cur * w na) := by
  cases q
  · simpa using logicAnd_spec hc cur na
  · simpa using logicOr_spec hc cur na

theorem canonLoop_spec [Fact p.Prime] (l : List (ℕ × Bool)) : ∀ (cur : ℕ) {c : Circ p} (_ : WF c),
    (∀ x ∈ l, x.1 < c.numVars) → cur < c.numVars →
    Spec (canonLoop l cur) c True (fun v c' => v < c'.numVars)
      (fun v w => ∀ (bs : List Bool) (t : Bool), (l.map Prod.fst).map w = bs.map boolF →
        w cur = boolF t → w v = boolF (ltFold (bs.zip (l.map Prod.snd)) t)) := by
  induction l with
  | nil =>
    intro cur c hc _ hcur
    refine Spec.pure hc hcur ?_
    intro w _ _ bs t hb ht
    have : bs = [] := by simpa using hb.symm
    simp [this, ltFold, ht]
  | cons x l ih =>
    intro cur c hc hx hcur
    obtain ⟨a, q⟩ := x
    have ha : a < c.numVars := hx (a, q) (by simp)
    unfold canonLoop
    refine Spec.bind (logicNeg_spec hc a) (fun _ _ _ => ha) hc ?_
    rintro na c1 e1 hna
    refine Spec.bind (canonStep_spec e1.wf cur na q) (fun _ _ _ => ⟨e1.lt hcur, hna⟩) e1.wf ?_
    rintro cur' c2 e2 hcur'
    refine Spec.conseq e2.wf
      (ih cur' e2.wf (fun y hy => e2.lt (e1.lt (hx y (by simp [hy])))) hcur')
      (fun _ _ _ => trivial) (fun _ _ _ h => h) ?_
    intro v w _ _ h1 h2 h3 bs t hb ht
    cases bs with
    | nil => simp at hb
    | cons b bs =>
      simp only [List.map_cons, List.cons.injEq] at hb
      rw [hb.1, boolF_not] at h3
      have hstep : w cur' = boolF (if q then t || !b else t && !b) := by
        rw [h2, h3, ht]
        cases q
        · simp [boolF_and]
        · simp [boolF_or]
      rw [h1 bs _ hb.2 hstep]
      simp [ltFold]

theorem map_zipPad_snd (bits : List ℕ) (pb : List Bool) (h : bits.length ≤ pb.length) :
    (zipPad bits pb).map Prod.snd = pb := by
  unfold zipPad
  rw [List.map_snd_zip]
  simp; omega

theorem map_zipPad_fst (bits : List ℕ) (pb : List Bool) (h : bits.length ≤ pb.length) :
    (zipPad bits pb).map Prod.fst = bits ++ List.replicate (pb.length - bits.length) 0 := by
  unfold zipPad
  rw [List.map_fst_zip]
  simp; omega

theorem bdgCanonical_spec [Fact p.Prime] {c : Circ p} (hc : WF c) (bits : List ℕ)
    (hv : ∀ v ∈ bits, v < c.numVars) (hl : bits.length ≤ bigintBits p) (a : ℕ) :
    Spec (binaryDecompositionGateCanonical bits a) c
      (bits ≠ [] ∧ a < c.numVars ∧ ∃ bs : List Bool, bits.map c.val = bs.map boolF ∧
        c.val a = (ofBits bs : ZMod p) ∧ ofBits bs < p)
      (fun _ _ => True)
      (fun _ w => ∀ bs : List Bool, bits.map w = bs.map boolF →
        w a = (ofBits bs : ZMod p) ∧ ofBits bs < p) := by
  unfold binaryDecompositionGateCanonical binaryDecompositionGate
  refine Spec.bind (decompositionGate_spec hc bits hv a 2) ?_ hc ?_
  · rintro ⟨h1, h2, bs, h3, h4, -⟩ - -
    exact ⟨h1, h2, by rw [h3, horner_boolF, h4]⟩
  rintro _ c1 e1 -
  have hpl : bits.length ≤ (bitsLE (bigintBits p) p).length := by rw [bitsLE_length]; exact hl
  refine Spec.bind (canonLoop_spec _ 0 e1.wf ?_ e1.wf.z) (fun _ _ _ => trivial) e1.wf ?_
  · intro x hx
    have hx1 : x.1 ∈ (zipPad bits (bitsLE (bigintBits p) p)).map Prod.fst :=
      List.mem_map_of_mem hx
    rw [map_zipPad_fst bits _ hpl] at hx1
    rcases List.mem_append.1 hx1 with h | h
    · exact e1.lt (hv _ h)
    · rw [(List.mem_replicate.1 h).2]; exact e1.wf.z
  rintro lt c2 e2 hlt
  rw [map_zipPad_fst bits _ hpl, map_zipPad_snd bits _ hpl]
  -- value of the fold
  have key : ∀ (w : ℕ → ZMod p) (bs : List Bool), w 0 = 0 → bits.map w = bs.map boolF →
      ((bits ++ List.replicate ((bitsLE (bigintBits p) p).length - bits.length) 0).map w
        = (bs ++ List.replicate ((bitsLE (bigintBits p) p).length - bits.length) false).map boolF)
      ∧ (ltFold ((bs ++ List.replicate ((bitsLE (bigintBits p) p).length - bits.length)
          false).zip (bitsLE (bigintBits p) p)) false = true ↔ ofBits bs < p) := by
    intro w bs h0 hb
    have hbl := map_boolF_length hb
    constructor
    · simp [hb, h0, boolF]
    · rw [ltFold_iff, List.map_fst_zip, List.map_snd_zip, ofBits_append, ofBits_replicate_false,
        ofBits_bitsLE, Nat.mod_eq_of_lt (lt_two_pow_bigint p)]
      · simp
      · simp; omega
      · simp; omega
  refine Spec.conseq e2.wf (enforceConstant_spec e2.wf lt 1) ?_ (fun _ _ _ h => h) ?_
  · rintro ⟨⟨⟨_, _, bs, h3, _, h5⟩, _⟩, h6⟩ h0 -
    refine ⟨hlt, ?_⟩
    have hbits : bits.map c2.val = bs.map boolF := by
      rw [← h3]
      apply List.map_congr_left
      intro x hx
      exact (e1.trans e2).val x (hv x hx)
    obtain ⟨k1, k2⟩ := key c2.val bs h0 hbits
    have := h6 _ false k1 (by rw [h0]; rfl)
    rw [this, k2.2 h5]; rfl
  · intro _ w h0 _ h1 h2 h3 bs hb
    obtain ⟨k1, k2⟩ := key w bs h0 hb
    have := h2 _ false k1 (by rw [h0]; rfl)
    rw [h1] at this
    refine ⟨?_, k2.1 (boolF_eq_one this.symm)⟩
    rw [h3, hb, horner_boolF]

/-- the decomposition step of `range_gate_internal`, with or without canonical check -/
theorem bdgStep_spec [Fact p.Prime] {c : Circ p} (hc : WF c) (bits : List ℕ)
    (hv : ∀ v ∈ bits, v < c.numVars) (hl : bits.length ≤ bigintBits p) (a n : ℕ) :
    Spec (if n = modulusBits p then binaryDecompositionGateCanonical bits a
        else binaryDecompositionGate bits a) c
      (bits ≠ [] ∧ a < c.numVars ∧ ∃ bs : List Bool, bits.map c.val = bs.map boolF ∧
        c.val a = (ofBits bs : ZMod p) ∧ ofBits bs < p)
      (fun _ _ => True)
      (fun _ w => ∀ bs : List Bool, bits.map w = bs.map boolF →
        w a = (ofBits bs : ZMod p) ∧ (n = modulusBits p → ofBits bs < p)) := by
  split
  · rename_i h
    refine Spec.conseq hc (bdgCanonical_spec hc bits hv hl a) (fun h _ _ => h)
      (fun _ _ _ h => h) ?_
    intro _ w _ _ h1 bs hb
    exact ⟨(h1 bs hb).1, fun _ => (h1 bs hb).2⟩
  · rename_i h
    unfold binaryDecompositionGate
    refine Spec.conseq hc (decompositionGate_spec hc bits hv a 2) ?_ (fun _ _ _ h => h) ?_
    · rintro ⟨h1, h2, bs, h3, h4, -⟩ - -
      exact ⟨h1, h2, by rw [h3, horner_boolF, h4]⟩
    · intro _ w _ _ h1 bs hb
      exact ⟨by rw [h1, hb, horner_boolF], fun h' => absurd h' h⟩

theorem rangeGateInternal_spec [Fact p.Prime] {c : Circ p} (hc : WF c) (a n : ℕ) :
    Spec (rangeGateInternal a n) c
      (a < c.numVars ∧ 0 < n ∧ n ≤ bigintBits p ∧ (c.val a).val < 2 ^ n)
      (fun vs c' => vs.length = n ∧ (∀ v ∈ vs, v < c'.numVars) ∧ 0 < n ∧ n ≤ bigintBits p)
      (fun vs w => ∃ bs : List Bool, vs.map w = bs.map boolF ∧ w a = (ofBits bs : ZMod p) ∧
        (n = modulusBits p → ofBits bs < p)) := by
  unfold rangeGateInternal
  apply Spec.checkVar_bind (fun h => h.1); intro ha
  split
  · rename_i h; exact Spec.fail (fun hC => by omega)
  rename_i hn
  apply Spec.witness_bind (fun h => h.1); intro _
  split
  · rename_i h; exact Spec.fail (fun hC => by omega)
  rename_i hn2
  rw [take_bitsLE (by omega : n ≤ bigintBits p)]
  refine Spec.bind (createBits_spec _ hc) (fun _ _ _ => trivial) hc ?_
  rintro bits c1 e1 ⟨hl, hv, hb⟩
  rw [bitsLE_length] at hl
  have hne : bits ≠ [] := by intro h; rw [h] at hl; simp at hl; omega
  have : (if n = modulusBits p then do
        binaryDecompositionGateCanonical bits a
        pure bits
      else do
        binaryDecompositionGate bits a
        pure bits : Build p (List ℕ)) = (do
        (if n = modulusBits p then binaryDecompositionGateCanonical bits a
          else binaryDecompositionGate bits a)
        pure bits) := by split <;> rfl
  rw [this]
  refine Spec.bind (bdgStep_spec e1.wf bits hv (by omega) a n) ?_ e1.wf ?_
  · rintro ⟨⟨h1, h2, h3, h4⟩, -⟩ - -
    refine ⟨hne, e1.lt ha, _, hb, ?_, ?_⟩
    · rw [ofBits_bitsLE, Nat.mod_eq_of_lt h4, e1.val a ha, ZMod.natCast_val, ZMod.cast_id]
    · rw [ofBits_bitsLE, Nat.mod_eq_of_lt h4]; exact ZMod.val_lt _
  rintro _ c2 e2 -
  refine Spec.pure e2.wf ⟨hl, fun x hx => e2.lt (hv x hx), by omega, by omega⟩ ?_
  intro w _ _ h1 h2
  obtain ⟨bs, hbs⟩ := exists_bits h2
  obtain ⟨k1, k2⟩ := h1 bs hbs
  exact ⟨bs, hbs, k1, k2⟩

/-- for at most `MODULUS_BIT_SIZE` bits the decomposition is the canonical one -/
theorem canonical_bits [Fact p.Prime] {n : ℕ} (hn : n ≤ modulusBits p) {vs : List ℕ}
    (hl : vs.length = n) {w : ℕ → ZMod p} {a : ℕ}
    (h : ∃ bs : List Bool, vs.map w = bs.map boolF ∧ w a = (ofBits bs : ZMod p) ∧
        (n = modulusBits p → ofBits bs < p)) :
    (w a).val < 2 ^ n ∧ vs.map w = (bitsLE n (w a).val).map boolF := by
  obtain ⟨bs, h1, h2, h3⟩ := h
  have hbl := map_boolF_length h1
  have hlt := ofBits_lt bs
  rw [← hbl, hl] at hlt
  have hp : ofBits bs < p := by
    rcases Nat.lt_or_ge n (modulusBits p) with h | h
    · exact lt_of_lt_of_le hlt (two_pow_le_of_lt_modulusBits h)
    · exact h3 (by omega)
  have hval : (w a).val = ofBits bs := by rw [h2, val_natCast_of_lt' hp]
  refine ⟨by rw [hval]; exact hlt, ?_⟩
  rw [h1, hval, ← hl, hbl, bitsLE_ofBits]

theorem val_two_pow [Fact p.Prime] (hp : p ≠ 2) {n : ℕ} (hn : n < modulusBits p) :
    ((2 : ZMod p) ^ n).val = 2 ^ n := by
  have h := two_pow_le_of_lt_modulusBits hn
  have hlt : 2 ^ n < p := by
    rcases Nat.lt_or_ge (2 ^ n) p with h' | h'
    · exact h'
    · have heq : p = 2 ^ n := by omega
      have hpr := (Fact.out : p.Prime)
      rcases Nat.eq_zero_or_pos n with h0 | h0
      · rw [h0] at heq; rw [heq] at hpr; exact absurd hpr (by simp [Nat.not_prime_one])
      · have hd : 2 ∣ p := by rw [heq]; exact dvd_pow_self 2 (by omega)
        exact absurd ((Nat.prime_dvd_prime_iff_eq Nat.prime_two hpr).1 hd).symm hp
  have : ((2 : ZMod p) ^ n) = ((2 ^ n : ℕ) : ZMod p) := by push_cast; rfl
  rw [this, val_natCast_of_lt' hlt]

theorem unpack_spec [Fact p.Prime] (hp : p ≠ 2) {c : Circ p} (hc : WF c) (a n : ℕ)
    (hn : n ≤ modulusBits p) :
    Spec (unpack a n) c (a < c.numVars ∧ 0 < n ∧ (c.val a).val < 2 ^ n)
      (fun vs c' => vs.length = n ∧ (∀ v ∈ vs, v < c'.numVars) ∧ 0 < n)
      (fun vs w => (w a).val < 2 ^ n ∧ vs.map w = (bitsLE n (w a).val).map boolF) := by
  have hint : Spec (rangeGateInternal a n) c (a < c.numVars ∧ 0 < n ∧ (c.val a).val < 2 ^ n)
      (fun vs c' => vs.length = n ∧ (∀ v ∈ vs, v < c'.numVars) ∧ 0 < n)
      (fun vs w => (w a).val < 2 ^ n ∧ vs.map w = (bitsLE n (w a).val).map boolF) := by
    have h1 := rangeGateInternal_spec hc a n
    constructor
    · intro v c' h
      obtain ⟨e, ⟨b1, b2, b3, _⟩, r⟩ := h1.sound v c' h
      exact ⟨e, ⟨b1, b2, b3⟩, fun pi w hs => canonical_bits hn b1 (r pi w hs)⟩
    · rintro ⟨h2, h3, h4⟩
      exact h1.complete ⟨h2, h3, hn.trans (modulusBits_le_bigint p), h4⟩
  unfold unpack
  split
  · rename_i hlt
    apply Spec.witness_bind (fun h => h.1); intro _
    split
    · rename_i h
      rw [val_two_pow hp hlt] at h
      exact Spec.fail (fun hC => by omega)
    · exact hint
  · exact hint

/-! ## lookup range gate -/

/-- a circuit whose range parameter is usable: positive, below 32 bits, range smaller than
the field -/
def RangeOK (c : Circ p) : Prop := ∀ k, c.ultra = some k → 0 < k ∧ k < 32 ∧ 2 ^ k < p

theorem rangeBound_eq {k : ℕ} (h32 : k < 32) (hp : 2 ^ k < p) : rangeBound p k = 2 ^ k := by
  unfold rangeBound
  rw [Nat.mod_eq_of_lt (Nat.pow_lt_pow_right (by norm_num) h32), val_natCast_of_lt' hp]

theorem createVars_spec (xs : List (ZMod p)) : ∀ {c : Circ p} (_ : WF c),
    Spec (createVars xs) c True
      (fun vs c' => vs.length = xs.length ∧ (∀ v ∈ vs, v < c'.numVars) ∧ vs.map c'.val = xs)
      (fun _ _ => True) := by
  induction xs with
  | nil =>
    intro c hc
    exact Spec.pure hc (by simp) (fun w _ _ => trivial)
  | cons x xs ih =>
    intro c hc
    unfold createVars
    refine Spec.bind (createVariable_spec hc x True) (fun h _ _ => h) hc ?_
    rintro v c1 e1 ⟨hv, hb⟩
    refine Spec.bind (ih e1.wf) (fun _ _ _ => trivial) e1.wf ?_
    rintro vs c2 e2 ⟨hl, hvs, hbs⟩
    refine Spec.pure e2.wf ?_ (fun w _ _ _ _ => trivial)
    refine ⟨by simp [hl], ?_, ?_⟩
    · intro x hx
      rcases List.mem_cons.1 hx with rfl | hx
      · exact e2.lt hv
      · exact hvs x hx
    · simp [hbs, e2.val v hv, hb]

theorem addRangeChecks_spec {k : ℕ} (vs : List ℕ) : ∀ {c : Circ p} (_ : WF c),
    c.ultra = some k → (∀ v ∈ vs, v < c.numVars) →
    Spec (addRangeChecks vs) c (∀ v ∈ vs, (c.val v).val < rangeBound p k)
      (fun _ _ => True) (fun _ w => ∀ v ∈ vs, (w v).val < rangeBound p k) := by
  induction vs with
  | nil =>
    intro c hc _ _
    exact Spec.pure hc trivial (fun w _ _ => by simp)
  | cons v vs ih =>
    intro c hc hu hv
    unfold addRangeChecks
    refine Spec.bind (addRangeCheckVariable_spec hc hu)
      (fun h _ _ => ⟨hv v (by simp), h v (by simp)⟩) hc ?_
    rintro _ c1 e1 -
    refine Spec.conseq e1.wf
      (ih e1.wf (e1.ultra.trans hu) (fun x hx => e1.lt (hv x (by simp [hx])))) ?_
      (fun _ _ _ h => h) ?_
    · rintro ⟨h, -⟩ - - x hx
      rw [e1.val x (hv x (by simp [hx]))]
      exact h x (by simp [hx])
    · intro _ w _ _ h1 h2 x hx
      rcases List.mem_cons.1 hx with rfl | hx
      · exact h2
      · exact h1 x hx

theorem horner_natCast (r : ℕ) (l : List ℕ) :
    horner (r : ZMod p) (l.map (fun n : ℕ => (n : ZMod p))) = ((horner r l : ℕ) : ZMod p) := by
  induction l with
  | nil => simp [horner]
  | cons a l ih => simp [horner, ih]

theorem horner_append (r : ℕ) (l1 l2 : List ℕ) :
    horner r (l1 ++ l2) = horner r l1 + r ^ l1.length * horner r l2 := by
  induction l1 with
  | nil => simp [horner]
  | cons a l ih => simp only [List.cons_append, horner, ih, List.length_cons, pow_succ]; ring

theorem horner_lt {r : ℕ} (l : List ℕ) (h : ∀ x ∈ l, x < r) : horner r l < r ^ l.length := by
  induction l with
  | nil => simp [horner]
  | cons a l ih =>
    have h1 := h a (by simp)
    have h2 := ih (fun x hx => h x (by simp [hx]))
    simp only [horner, List.length_cons, pow_succ]
    calc a + r * horner r l < r + r * horner r l := by omega
      _ = r * (horner r l + 1) := by ring
      _ ≤ r * r ^ l.length := Nat.mul_le_mul_left _ h2
      _ = r ^ l.length * r := by ring

/-- chunks of a number -/
def chunksLE (k : ℕ) : (len n : ℕ) → List ℕ
  | 0, _ => []
  | len + 1, n => n % 2 ^ k :: chunksLE k len (n / 2 ^ k)

theorem chunksLE_horner (k : ℕ) (len n : ℕ) (h : n < 2 ^ (k * len)) :
    horner (2 ^ k) (chunksLE k len n) = n := by
  induction len generalizing n with
  | zero => simp [chunksLE, horner] at *; omega
  | succ len ih =>
    have hq : n / 2 ^ k < 2 ^ (k * len) := by
      apply Nat.div_lt_of_lt_mul
      rw [← pow_add]
      have : k + k * len = k * (len + 1) := by ring
      rw [this]; exact h
    simp only [chunksLE, horner, ih _ hq]
    exact Nat.mod_add_div n (2 ^ k)

theorem chunksLE_eq (k : ℕ) (len n : ℕ) :
    chunksLE k len n = (List.range len).map (fun i => n / 2 ^ (k * i) % 2 ^ k) := by
  induction len generalizing n with
  | zero => rfl
  | succ len ih =>
    rw [List.range_succ_eq_map, List.map_cons, List.map_map]
    simp only [chunksLE, ih, mul_zero, pow_zero, Nat.div_one, List.cons.injEq, true_and]
    apply List.map_congr_left
    intro i _
    simp only [Function.comp, Nat.succ_eq_add_one]
    rw [Nat.div_div_eq_div_mul, ← pow_add]
    congr 3; ring

theorem decomposeLE_eq [Fact p.Prime] (x : ZMod p) (len k : ℕ) (hk : 0 < k) :
    decomposeLE x len k = (chunksLE k len x.val).map (fun n : ℕ => (n : ZMod p)) := by
  unfold decomposeLE
  rw [chunksLE_eq, List.map_map]
  apply List.map_congr_left
  intro i _
  simp only [Function.comp]
  split
  · rfl
  · rename_i h
    have hge : bigintBits p ≤ k * i := by
      have h1 : (bigintBits p + k - 1) / k ≤ i := by omega
      have h2 : bigintBits p + k - 1 < k * (i + 1) := by
        have := Nat.lt_mul_div_succ (bigintBits p + k - 1) hk
        calc bigintBits p + k - 1 < k * ((bigintBits p + k - 1) / k + 1) := this
          _ ≤ k * (i + 1) := Nat.mul_le_mul_left _ (by omega)
      have : k * (i + 1) = k * i + k := by ring
      omega
    have hv : x.val < 2 ^ (k * i) :=
      lt_of_lt_of_le (lt_trans (ZMod.val_lt x) (lt_two_pow_bigint p))
        (Nat.pow_le_pow_right (by norm_num) hge)
    rw [Nat.div_eq_of_lt hv]
    simp

theorem map_val_natCast [Fact p.Prime] (vs : List ℕ) (w : ℕ → ZMod p) :
    vs.map w = (vs.map (fun v => (w v).val)).map (fun n : ℕ => (n : ZMod p)) := by
  rw [List.map_map]
  apply List.map_congr_left
  intro v _
  simp [ZMod.natCast_val, ZMod.cast_id]

/-- the integer value of the chunks is below the range and congruent to `a` -/
theorem rangeGateWithLookup_spec [Fact p.Prime] {c : Circ p} (hc : WF c)
    (hr : RangeOK c) (a n : ℕ) :
    Spec (rangeGateWithLookup a n) c
      (c.ultra.isSome = true ∧ a < c.numVars ∧ 0 < n ∧ (c.val a).val < 2 ^ n) (fun _ _ => True)
      (fun _ w => ∃ N : ℕ, N < 2 ^ n ∧ w a = (N : ZMod p)) := by
  unfold rangeGateWithLookup
  rcases hu : c.ultra with _ | k
  · have : (rangeBitLen : Build p ℕ) c = .error .parameter := by unfold rangeBitLen; rw [hu]
    constructor
    · intro v c' h; rw [bind_eq, this] at h; cases h
    · rintro ⟨h, -⟩; simp at h
  obtain ⟨hk0, hk32, hkp⟩ := hr k hu
  have hrb : (rangeBitLen : Build p ℕ) c = .ok (k, c) := by unfold rangeBitLen; rw [hu]
  have hmain : Spec (if n = 0 then Build.fail .parameter
    else do
      checkVar a
      if k = 0 then Build.fail .panic
      else do
        let x ← witness a
        let vars ← createVars (decomposeLE x (n / k + (if n % k > 0 then 1 else 0)) k)
        addRangeChecks (vars.take (n / k))
        if n % k > 0 then do
          let _ ← rangeGateInternal (vars.getD (n / k) 0) (n % k)
          decompositionGate vars a ((2 ^ k : ℕ) : ZMod p)
        else
          decompositionGate vars a ((2 ^ k : ℕ) : ZMod p) : Build p Unit) c
      (a < c.numVars ∧ 0 < n ∧ (c.val a).val < 2 ^ n) (fun _ _ => True)
      (fun _ w => ∃ N : ℕ, N < 2 ^ n ∧ w a = (N : ZMod p)) := by
    split
    · rename_i h; exact Spec.fail (fun hC => by omega)
    rename_i hn0
    apply Spec.checkVar_bind (fun h => h.1); intro ha
    rw [if_neg (by omega)]
    apply Spec.witness_bind (fun h => h.1); intro _
    rw [decomposeLE_eq _ _ _ hk0]
    set len := n / k + (if n % k > 0 then 1 else 0) with hlen
    refine Spec.bind (createVars_spec _ hc) (fun _ _ _ => trivial) hc ?_
    rintro vars c1 e1 ⟨hvl, hv, hvv⟩
    have hvl' : vars.length = len := by rw [hvl, List.length_map, chunksLE_eq]; simp
    have hdm := Nat.div_add_mod n k
    have hnlen : n ≤ k * len := by
      rw [hlen]; split
      · have := Nat.mod_lt n hk0; have : k * (n / k + 1) = k * (n / k) + k := by ring
        omega
      · simp; omega
    have hvals : ∀ i, i < len → (c1.val (vars.getD i 0)).val = (c.val a).val / 2 ^ (k * i) % 2 ^ k := by
      intro i hi
      have h1 := congrArg (fun l => l.getD i 0) hvv
      simp only [chunksLE_eq, List.map_map] at h1
      have h2 : (vars.map c1.val).getD i 0 = c1.val (vars.getD i 0) := by
        simp [List.getD_eq_getElem?_getD, List.getElem?_eq_getElem (show i < vars.length by omega)]
      rw [h2] at h1
      rw [h1]
      simp only [List.getD_eq_getElem?_getD, List.getElem?_map, List.getElem?_range hi,
        Option.map_some, Option.getD_some, Function.comp]
      exact val_natCast_of_lt' (lt_trans (Nat.mod_lt _ (by positivity)) hkp)
    have hu1 : c1.ultra = some k := e1.ultra.trans hu
    refine Spec.bind (addRangeChecks_spec (vars.take (n / k)) e1.wf hu1
      (fun x hx => hv x (List.mem_of_mem_take hx))) ?_ e1.wf ?_
    · rintro - - - x hx
      obtain ⟨i, hi, rfl⟩ := List.mem_iff_getElem.1 hx
      rw [List.length_take] at hi
      have hlt : i < len := by omega
      have := hvals i hlt
      rw [List.getElem_take]
      rw [List.getD_eq_getElem?_getD, List.getElem?_eq_getElem (show i < vars.length by omega)] at this
      simp only [Option.getD_some] at this
      rw [this, rangeBound_eq hk32 hkp]
      exact Nat.mod_lt _ (by positivity)
    rintro _ c2 e2 -
    have hv2 : ∀ v ∈ vars, v < c2.numVars := fun v h => e2.lt (hv v h)
    have hne : vars ≠ [] := by
      intro h; rw [h] at hvl'
      simp at hvl'
      rw [← hvl'] at hnlen; omega
    -- completeness of the final decomposition
    have hcomp : ∀ c3 : Circ p, Ext c1 c3 → (c.val a).val < 2 ^ n →
        c3.val a = horner ((2 ^ k : ℕ) : ZMod p) (vars.map c3.val) := by
      intro c3 e3 hlt
      have h1 : vars.map c3.val = vars.map c1.val := by
        apply List.map_congr_left
        intro x hx; exact e3.val x (hv x hx)
      rw [h1, hvv, horner_natCast, chunksLE_horner, e3.val a (e1.lt ha), e1.val a ha,
        ZMod.natCast_val, ZMod.cast_id]
      exact lt_of_lt_of_le hlt (Nat.pow_le_pow_right (by norm_num) hnlen)
    -- soundness of the final decomposition
    have hsound : ∀ w : ℕ → ZMod p, w a = horner ((2 ^ k : ℕ) : ZMod p) (vars.map w) →
        (∀ v ∈ vars.take (n / k), (w v).val < rangeBound p k) →
        ((w (vars.getD (n / k) 0)).val < 2 ^ (n % k) ∨ n % k = 0) →
        ∃ N : ℕ, N < 2 ^ n ∧ w a = (N : ZMod p) := by
      intro w h1 h2 h3
      rw [map_val_natCast, horner_natCast] at h1
      refine ⟨_, ?_, h1⟩
      set vals := vars.map (fun v => (w v).val) with hvals'
      have hsplit : vals = vals.take (n / k) ++ vals.drop (n / k) := (List.take_append_drop _ _).symm
      have hlenv : vals.length = len := by rw [hvals']; simp [hvl']
      have htl : (vals.take (n / k)).length = n / k := by rw [List.length_take, hlenv]; omega
      have htake : horner (2 ^ k) (vals.take (n / k)) < (2 ^ k) ^ (n / k) := by
        have := horner_lt (r := 2 ^ k) (vals.take (n / k)) (by
          intro x hx
          rw [hvals', ← List.map_take] at hx
          obtain ⟨v, hv', rfl⟩ := List.mem_map.1 hx
          have := h2 v hv'
          rwa [rangeBound_eq hk32 hkp] at this)
        rwa [htl] at this
      rw [hsplit, horner_append, htl]
      have hpow : 2 ^ n = (2 ^ k) ^ (n / k) * 2 ^ (n % k) := by
        rw [← pow_mul, ← pow_add, hdm]
      rw [hpow]
      have hdrop : horner (2 ^ k) (vals.drop (n / k)) < 2 ^ (n % k) := by
        rcases Nat.eq_zero_or_pos (n % k) with h0 | h0
        · have : vals.drop (n / k) = [] := by
            apply List.drop_eq_nil_of_le; rw [hlenv, hlen, h0]; simp
          rw [this]; simp [horner]
        · have hlast : vals.drop (n / k) = [(w (vars.getD (n / k) 0)).val] := by
            have hl1 : len = n / k + 1 := by rw [hlen, if_pos h0]
            have hlt : n / k < vals.length := by omega
            rw [List.drop_eq_getElem_cons hlt]
            rw [List.drop_eq_nil_of_le (by omega)]
            have : n / k < vars.length := by omega
            simp [hvals', List.getElem?_eq_getElem this]
          rw [hlast]
          rcases h3 with h3 | h3
          · simpa [horner] using h3
          · omega
      calc _ < (2 ^ k) ^ (n / k) + (2 ^ k) ^ (n / k) * horner (2 ^ k) (vals.drop (n / k)) := by
              omega
        _ = (2 ^ k) ^ (n / k) * (horner (2 ^ k) (vals.drop (n / k)) + 1) := by ring
        _ ≤ _ := Nat.mul_le_mul_left _ hdrop
    split
    · rename_i hlo
      have hi : n / k < len := by rw [hlen, if_pos hlo]; omega
      refine Spec.bind (rangeGateInternal_spec e2.wf _ _) ?_ e2.wf ?_
      · rintro ⟨⟨⟨_, _, hlt⟩, _⟩, _⟩ - -
        have hmem := getD_lt e1.wf hv (n / k)
        have hkbits : k ≤ modulusBits p := by
          by_contra hcon
          have : p < 2 ^ k := lt_of_lt_of_le (Nat.lt_size_self p)
            (Nat.pow_le_pow_right (by norm_num) (by unfold modulusBits at hcon; omega))
          omega
        refine ⟨e2.lt hmem, hlo, ?_, ?_⟩
        · have := Nat.mod_lt n hk0; have := modulusBits_le_bigint p; omega
        · rw [e2.val _ hmem, hvals _ hi]
          apply lt_of_le_of_lt (Nat.mod_le _ _)
          apply Nat.div_lt_of_lt_mul
          rw [← pow_add, hdm]; exact hlt
      rintro lv c3 e3 ⟨hl3, _, _, _⟩
      refine Spec.conseq e3.wf (decompositionGate_spec e3.wf vars (fun v h => e3.lt (hv2 v h)) a _)
        ?_ (fun _ _ _ h => h) ?_
      · rintro ⟨⟨⟨⟨_, _, hlt⟩, _⟩, _⟩, _⟩ - -
        exact ⟨hne, (e2.trans e3).lt (e1.lt ha), hcomp c3 (e2.trans e3) hlt⟩
      · intro _ w _ _ h1 h2 h3 _
        have hkbits : n % k ≤ modulusBits p := by
          have h := Nat.mod_lt n hk0
          by_contra hcon
          have : p < 2 ^ k := lt_of_lt_of_le (Nat.lt_size_self p)
            (Nat.pow_le_pow_right (by norm_num) (by unfold modulusBits at hcon; omega))
          omega
        exact hsound w h1 h3 (Or.inl (canonical_bits hkbits hl3 h2).1)
    · rename_i hlo
      refine Spec.conseq e2.wf (decompositionGate_spec e2.wf vars hv2 a _)
        ?_ (fun _ _ _ h => h) ?_
      · rintro ⟨⟨⟨_, _, hlt⟩, _⟩, _⟩ - -
        exact ⟨hne, e2.lt (e1.lt ha), hcomp c2 e2 hlt⟩
      · intro _ w _ _ h1 h3 _
        exact hsound w h1 h3 (Or.inr (by omega))
  constructor
  · intro v c' h
    rw [bind_of_ok hrb] at h
    exact hmain.sound v c' h
  · rintro ⟨_, h⟩ pi hs
    rw [bind_of_ok hrb]
    exact hmain.complete h pi hs

theorem val_lt_of_natCast [Fact p.Prime] {n N : ℕ} {x : ZMod p} (hN : N < 2 ^ n)
    (hx : x = (N : ZMod p)) : x.val < 2 ^ n := by
  rw [hx, ZMod.val_natCast]
  exact lt_of_le_of_lt (Nat.mod_le _ _) hN

theorem enforceInRange_spec [Fact p.Prime] {c : Circ p} (hc : WF c)
    (hr : RangeOK c) (a n : ℕ) :
    Spec (enforceInRange a n) c
      (a < c.numVars ∧ 0 < n ∧ (c.ultra = none → n ≤ bigintBits p) ∧ (c.val a).val < 2 ^ n)
      (fun _ _ => True) (fun _ w => (w a).val < 2 ^ n) := by
  unfold enforceInRange
  have hl : (supportLookup : Build p Bool) c = .ok (c.ultra.isSome, c) := rfl
  rcases hu : c.ultra with _ | k
  · rw [hu] at hl
    have h1 : Spec (do let _ ← rangeGateInternal a n; pure () : Build p Unit) c
        (a < c.numVars ∧ 0 < n ∧ n ≤ bigintBits p ∧ (c.val a).val < 2 ^ n)
        (fun _ _ => True) (fun _ w => (w a).val < 2 ^ n) := by
      refine Spec.bind (rangeGateInternal_spec hc a n) (fun h _ _ => h) hc ?_
      rintro vs c1 e1 ⟨hvl, _, _, _⟩
      refine Spec.pure e1.wf trivial ?_
      rintro w _ _ ⟨bs, h1, h2, _⟩
      have := map_boolF_length h1
      have hb := ofBits_lt bs
      rw [← this, hvl] at hb
      exact val_lt_of_natCast hb h2
    constructor
    · intro v c' h
      rw [bind_of_ok hl] at h
      exact h1.sound v c' h
    · rintro ⟨a1, a2, a3, a4⟩ pi hs
      rw [bind_of_ok hl]
      exact h1.complete ⟨a1, a2, a3 rfl, a4⟩ pi hs
  · rw [hu] at hl
    have h1 := rangeGateWithLookup_spec hc hr a n
    constructor
    · intro v c' h
      rw [bind_of_ok hl] at h
      obtain ⟨e, b, r⟩ := h1.sound v c' h
      refine ⟨e, b, fun pi w hs => ?_⟩
      obtain ⟨N, hN, hx⟩ := r pi w hs
      exact val_lt_of_natCast hN hx
    · rintro ⟨a1, a2, _, a4⟩ pi hs
      rw [bind_of_ok hl]
      exact h1.complete ⟨by rw [hu]; rfl, a1, a2, a4⟩ pi hs

/-! ## is_in_range -/

theorem lt_two_pow_pred {n : ℕ} (h : 3 ≤ n) : n < 2 ^ (n - 1) := by
  obtain ⟨m, rfl⟩ := Nat.exists_eq_add_of_le h
  induction m with
  | zero => norm_num
  | succ m ih =>
    have h2 := ih (by omega)
    have : 3 + (m + 1) - 1 = (3 + m - 1) + 1 := by omega
    rw [this, pow_succ]
    omega

theorem sum_boolF (l : List Bool) : (l.map boolF).sum = ((l.count true : ℕ) : ZMod p) := by
  induction l with
  | nil => simp
  | cons b l ih => cases b <;> simp [boolF, ih, add_comm]

theorem ofBits_eq_zero (l : List Bool) : ofBits l = 0 ↔ l.count true = 0 := by
  induction l with
  | nil => simp [ofBits]
  | cons b l ih => cases b <;> simp [ofBits, ih]

theorem sum_boolF_eq_zero {l : List Bool} (h : l.length < p) :
    (l.map boolF).sum = (0 : ZMod p) ↔ ofBits l = 0 := by
  rw [sum_boolF, ZMod.natCast_eq_zero_iff, ofBits_eq_zero]
  have := List.count_le_length (a := true) (l := l)
  constructor
  · intro hd; exact Nat.eq_zero_of_dvd_of_lt hd (by omega)
  · intro h0; rw [h0]; exact dvd_zero _

theorem isInRange_spec [Fact p.Prime] (hp2 : p ≠ 2) {c : Circ p} (hc : WF c) (a n : ℕ) :
    Spec (isInRange a n) c (a < c.numVars ∧ n < modulusBits p) (fun v c' => v < c'.numVars)
      (fun v w => w v = if (w a).val < 2 ^ n then 1 else 0) := by
  unfold isInRange
  have hmpos : 0 < modulusBits p := Nat.size_pos.2 (Fact.out : p.Prime).pos
  refine Spec.bind (unpack_spec hp2 hc a (modulusBits p) (le_refl _)) ?_ hc ?_
  · rintro ⟨h1, _⟩ - -
    exact ⟨h1, hmpos, lt_trans (ZMod.val_lt _) (Nat.lt_size_self p)⟩
  rintro bits c1 e1 ⟨hl, hv, _⟩
  split
  · rename_i h; exact Spec.fail (fun hC => by have := hC.1.2; omega)
  refine Spec.bind (sum_spec e1.wf (bits.drop n)) ?_ e1.wf ?_
  · rintro ⟨⟨_, hn⟩, _⟩ - -
    refine ⟨?_, fun x hx => hv x (List.mem_of_mem_drop hx)⟩
    intro h
    have := congrArg List.length h
    simp at this; omega
  rintro s c2 e2 hs
  refine Spec.conseq e2.wf (isZero_spec e2.wf s) (fun _ _ _ => hs) (fun _ _ _ h => h) ?_
  rintro v w _ _ h1 h2 ⟨h3, h4⟩
  rw [h1, h2]
  have hlen : (bits.drop n).length < p := by
    rw [List.length_drop, hl]
    have hp3 : 3 ≤ p := by
      have := (Fact.out : p.Prime).two_le
      omega
    have : modulusBits p ≤ p - 1 := Nat.size_le.2 (lt_two_pow_pred hp3)
    omega
  have hn : n ≤ modulusBits p := by omega
  have := sum_boolF_eq_zero (p := p) (l := (bitsLE (modulusBits p) (w a).val).drop n)
    (by rw [List.length_drop, bitsLE_length]; rw [List.length_drop, hl] at hlen; exact hlen)
  rw [List.map_drop, ← h4, ← List.map_drop] at this
  have h5 := ofBits_append ((bitsLE (modulusBits p) (w a).val).take n)
    ((bitsLE (modulusBits p) (w a).val).drop n)
  rw [List.take_append_drop, ofBits_bitsLE, Nat.mod_eq_of_lt h3, take_bitsLE hn, ofBits_bitsLE,
    bitsLE_length] at h5
  have h6 : (w a).val < 2 ^ n ↔ ofBits ((bitsLE (modulusBits p) (w a).val).drop n) = 0 := by
    have hpos : 0 < 2 ^ n := by positivity
    constructor
    · intro hlt
      by_contra h0
      have : 2 ^ n * 1 ≤ 2 ^ n * ofBits ((bitsLE (modulusBits p) (w a).val).drop n) :=
        Nat.mul_le_mul_left _ (by omega)
      omega
    · intro h0
      rw [h0] at h5
      have := Nat.mod_lt (w a).val hpos
      omega
  by_cases hz : (w a).val < 2 ^ n
  · rw [if_pos hz, if_pos (this.2 (h6.1 hz))]
  · rw [if_neg hz, if_neg (fun h => hz (h6.2 (this.1 h)))]

end Verif.Circuit
