import Verif.Circuit.CmpSpec

/-!
# What `truncate_gate` enforces
-/

namespace Verif.Circuit

variable {p : ℕ}

theorem whenNonzero_spec {m : Build p Unit} {c : Circ p} {C : Prop} {R : (ℕ → ZMod p) → Prop}
    (hc : WF c) (n : ℕ) (h : n ≠ 0 → Spec m c C (fun _ _ => True) (fun _ w => R w)) :
    Spec (whenNonzero n m) c (n ≠ 0 → C) (fun _ _ => True) (fun _ w => n ≠ 0 → R w) := by
  unfold whenNonzero
  split
  · rename_i hn
    exact Spec.conseq hc (h hn) (fun hC _ _ => hC hn) (fun _ _ _ h => h) (fun _ _ _ _ h _ => h)
  · rename_i hn
    exact Spec.pure hc trivial (fun w _ _ h => absurd h hn)

theorem RangeOK.ext {c c' : Circ p} (h : RangeOK c) (e : Ext c c') : RangeOK c' := by
  intro k hk; rw [e.ultra] at hk; exact h k hk

/-- what the constraints of `truncate_gate` say, component by component -/
structure TruncRel (w : ℕ → ZMod p) (a b b1 b2 z1 z2 bitLength lkB nlkB lkD nlkD : ℕ) : Prop where
  hb : w b = w b1 + 2 ^ lkB * w b2
  ha : w a = w b + 2 ^ bitLength * w z1 + 2 ^ (lkD + bitLength) * w z2
  hb1 : lkB ≠ 0 → ∃ N, N < 2 ^ lkB ∧ w b1 = ((N : ℕ) : ZMod p)
  hb2 : nlkB ≠ 0 → (w b2).val < 2 ^ nlkB
  hz1 : lkD ≠ 0 → ∃ N, N < 2 ^ lkD ∧ w z1 = ((N : ℕ) : ZMod p)
  hz2 : nlkD ≠ 0 → (w z2).val < 2 ^ nlkD

theorem truncateConstraints_spec [Fact p.Prime] {c : Circ p} (hc : WF c)
    (hr : RangeOK c) (hu : c.ultra.isSome = true) {a b b1 b2 z1 z2 : ℕ}
    (ha : a < c.numVars) (hb : b < c.numVars) (hb1 : b1 < c.numVars) (hb2 : b2 < c.numVars)
    (hz1 : z1 < c.numVars) (hz2 : z2 < c.numVars) (bitLength lkB nlkB lkD nlkD : ℕ) :
    Spec (truncateConstraints a b b1 b2 z1 z2 bitLength lkB nlkB lkD nlkD) c
      (c.val b = c.val b1 + 2 ^ lkB * c.val b2 ∧
       c.val a = c.val b + 2 ^ bitLength * c.val z1 + 2 ^ (lkD + bitLength) * c.val z2 ∧
       (lkB ≠ 0 → (c.val b1).val < 2 ^ lkB) ∧ (nlkB ≠ 0 → (c.val b2).val < 2 ^ nlkB) ∧
       (lkD ≠ 0 → (c.val z1).val < 2 ^ lkD) ∧ (nlkD ≠ 0 → (c.val z2).val < 2 ^ nlkD))
      (fun _ _ => True)
      (fun _ w => TruncRel w a b b1 b2 z1 z2 bitLength lkB nlkB lkD nlkD) := by
  unfold truncateConstraints
  have hcoef : (((((2 : ZMod p) ^ lkD).val * ((2 : ZMod p) ^ bitLength).val : ℕ)) : ZMod p)
      = 2 ^ (lkD + bitLength) := by
    simp [ZMod.natCast_val, ZMod.cast_id, pow_add]
  rw [hcoef]
  refine Spec.bind (lcGate_spec hc b1 b2 0 0 b 1 (2 ^ lkB) 0 0) ?_ hc ?_
  · rintro ⟨h1, _⟩ - -
    refine ⟨?_, by rw [h1]; ring⟩
    intro v hv
    simp only [List.mem_cons, List.not_mem_nil, or_false] at hv
    have := hc.z
    rcases hv with rfl | rfl | rfl | rfl | rfl <;> assumption
  rintro _ c1 e1 -
  refine Spec.bind (lcGate_spec e1.wf b z1 z2 0 a 1 (2 ^ bitLength) (2 ^ (lkD + bitLength)) 0)
    ?_ e1.wf ?_
  · rintro ⟨⟨_, h1, _⟩, _⟩ - -
    refine ⟨?_, by rw [e1.val a ha, e1.val b hb, e1.val z1 hz1, e1.val z2 hz2, h1]; ring⟩
    intro v hv
    simp only [List.mem_cons, List.not_mem_nil, or_false] at hv
    have := hc.z
    apply e1.lt
    rcases hv with rfl | rfl | rfl | rfl | rfl <;> assumption
  rintro _ c2 e2 -
  have e02 := e1.trans e2
  refine Spec.bind (whenNonzero_spec e2.wf lkB
    (fun _ => rangeGateWithLookup_spec e2.wf (hr.ext e02) b1 lkB)) ?_ e2.wf ?_
  · rintro ⟨⟨⟨_, _, h, _⟩, _⟩, _⟩ - - hne
    refine ⟨by rw [e02.ultra]; exact hu, e02.lt hb1, by omega, ?_⟩
    rw [e02.val b1 hb1]; exact h hne
  rintro _ c3 e3 -
  have e03 := e02.trans e3
  refine Spec.bind (whenNonzero_spec e3.wf nlkB
    (fun _ => enforceInRange_spec e3.wf (hr.ext e03) b2 nlkB)) ?_ e3.wf ?_
  · rintro ⟨⟨⟨⟨_, _, _, h, _⟩, _⟩, _⟩, _⟩ - - hne
    refine ⟨e03.lt hb2, by omega, ?_, ?_⟩
    · intro h'; rw [e03.ultra] at h'; rw [h'] at hu; simp at hu
    · rw [e03.val b2 hb2]; exact h hne
  rintro _ c4 e4 -
  have e04 := e03.trans e4
  refine Spec.bind (whenNonzero_spec e4.wf lkD
    (fun _ => rangeGateWithLookup_spec e4.wf (hr.ext e04) z1 lkD)) ?_ e4.wf ?_
  · rintro ⟨⟨⟨⟨⟨_, _, _, _, h, _⟩, _⟩, _⟩, _⟩, _⟩ - - hne
    refine ⟨by rw [e04.ultra]; exact hu, e04.lt hz1, by omega, ?_⟩
    rw [e04.val z1 hz1]; exact h hne
  rintro _ c5 e5 -
  have e05 := e04.trans e5
  refine Spec.conseq e5.wf (whenNonzero_spec e5.wf nlkD
    (fun _ => enforceInRange_spec e5.wf (hr.ext e05) z2 nlkD)) ?_ (fun _ _ _ h => h) ?_
  · rintro ⟨⟨⟨⟨⟨⟨_, _, _, _, _, h⟩, _⟩, _⟩, _⟩, _⟩, _⟩ - - hne
    refine ⟨e05.lt hz2, by omega, ?_, ?_⟩
    · intro h'; rw [e05.ultra] at h'; rw [h'] at hu; simp at hu
    · rw [e05.val z2 hz2]; exact h hne
  · intro _ w _ _ r6 r5 r4 r3 r2 r1
    exact ⟨by rw [r1]; ring, by rw [r2]; ring, r3, r4, r5, r6⟩

/-- If all four components are constrained, `b` is a truncation of `a` or of `a + p`. -/
theorem TruncRel.trunc [Fact p.Prime] {w : ℕ → ZMod p}
    {a b b1 b2 z1 z2 l lkB nlkB lkD nlkD : ℕ}
    (h : TruncRel w a b b1 b2 z1 z2 l lkB nlkB lkD nlkD)
    (hl : l = lkB + nlkB) (hd : modulusBits p = l + (lkD + nlkD)) (hlm : l < modulusBits p)
    (n1 : lkB ≠ 0) (n2 : nlkB ≠ 0) (n3 : lkD ≠ 0) (n4 : nlkD ≠ 0) :
    (w b).val < 2 ^ l ∧
      ((w b).val = (w a).val % 2 ^ l ∨ ((w a).val + p < 2 ^ modulusBits p ∧ (w b).val = ((w a).val + p) % 2 ^ l)) := by
  obtain ⟨N1, hN1, e1⟩ := h.hb1 n1
  have hN2 := h.hb2 n2
  obtain ⟨M1, hM1, e3⟩ := h.hz1 n3
  have hM2 := h.hz2 n4
  set N2 := (w b2).val with hN2d
  set M2 := (w z2).val with hM2d
  have e2 : w b2 = (N2 : ZMod p) := by rw [hN2d, ZMod.natCast_val, ZMod.cast_id]
  have e4 : w z2 = (M2 : ZMod p) := by rw [hM2d, ZMod.natCast_val, ZMod.cast_id]
  have combine : ∀ {x y i j : ℕ}, x < 2 ^ i → y < 2 ^ j → x + 2 ^ i * y < 2 ^ (i + j) := by
    intro x y i j hx hy
    calc x + 2 ^ i * y < 2 ^ i + 2 ^ i * y := by omega
      _ = 2 ^ i * (y + 1) := by ring
      _ ≤ 2 ^ i * 2 ^ j := Nat.mul_le_mul_left _ hy
      _ = 2 ^ (i + j) := by rw [pow_add]
  have hB := combine hN1 hN2
  rw [← hl] at hB
  have hZ := combine hM1 hM2
  set B := N1 + 2 ^ lkB * N2 with hBd
  set Z := M1 + 2 ^ lkD * M2 with hZd
  have hA := combine hB hZ
  rw [← hd] at hA
  have hbv : w b = (B : ZMod p) := by rw [h.hb, e1, e2, hBd]; push_cast; ring
  have hav : w a = ((B + 2 ^ l * Z : ℕ) : ZMod p) := by
    rw [h.ha, hbv, e3, e4, hZd]; push_cast; ring
  have hBp : B < p := lt_of_lt_of_le hB (two_pow_le_of_lt_modulusBits hlm)
  have hbval : (w b).val = B := by rw [hbv, val_natCast_of_lt' hBp]
  refine ⟨by rw [hbval]; exact hB, ?_⟩
  have hmod : (B + 2 ^ l * Z) % 2 ^ l = B := by
    rw [Nat.add_mul_mod_self_left, Nat.mod_eq_of_lt hB]
  have h2p : B + 2 ^ l * Z < 2 * p := by
    have hm : 2 ^ (modulusBits p - 1) ≤ p := two_pow_le_of_lt_modulusBits (by omega)
    have : 2 ^ modulusBits p = 2 * 2 ^ (modulusBits p - 1) := by
      rw [← pow_succ']; congr 1; omega
    omega
  rcases Nat.lt_or_ge (B + 2 ^ l * Z) p with hlt | hge
  · left
    rw [hbval, hav, val_natCast_of_lt' hlt, hmod]
  · right
    have : w a = ((B + 2 ^ l * Z - p : ℕ) : ZMod p) := by
      rw [hav, Nat.cast_sub hge]; simp
    rw [hbval, this, val_natCast_of_lt' (by omega), Nat.sub_add_cancel hge, hmod]
    exact ⟨hA, rfl⟩

theorem truncateGate_spec [Fact p.Prime] (hp2 : p ≠ 2) {c : Circ p} (hc : WF c)
    (hr : RangeOK c) {k : ℕ} (hu : c.ultra = some k) (a b l : ℕ) :
    Spec (truncateGate a b l) c
      ((a < c.numVars ∧ b < c.numVars) ∧ 0 < l ∧ l < modulusBits p ∧
        (c.val b).val = (c.val a).val % 2 ^ l)
      (fun _ _ => l < modulusBits p ∧ a < c.numVars ∧ b < c.numVars)
      (fun _ w => ∃ b1 b2 z1 z2, TruncRel w a b b1 b2 z1 z2 l (l - l % k) (l % k)
        (modulusBits p - l - (modulusBits p - l) % k) ((modulusBits p - l) % k)) := by
  obtain ⟨hk0, hk32, hkp⟩ := hr k hu
  have hl1 : (supportLookup : Build p Bool) c = .ok (true, c) := by
    unfold supportLookup; rw [hu]; rfl
  have hrb : (rangeBitLen : Build p ℕ) c = .ok (k, c) := by unfold rangeBitLen; rw [hu]
  have hread : ∀ {α β : Type} {m : Build p α} {f : α → Build p β} {v : α} {C : Prop}
      {B : β → Circ p → Prop} {R : β → (ℕ → ZMod p) → Prop}, m c = .ok (v, c) →
      Spec (f v) c C B R → Spec (m >>= f) c C B R := by
    intro α β m f v C B R hm hs
    constructor
    · intro u c' h; rw [bind_of_ok hm] at h; exact hs.sound u c' h
    · intro hC pi h; rw [bind_of_ok hm]; exact hs.complete hC pi h
  unfold truncateGate
  apply hread hl1
  rw [if_neg (by simp)]
  apply Spec.checkVar_bind (fun h => h.1.1); intro ha
  apply Spec.checkVar_bind (fun h => h.1.2); intro hb
  apply Spec.witness_bind (fun h => h.1.1); intro _
  apply Spec.witness_bind (fun h => h.1.2); intro _
  dsimp only
  have hltpow : (c.val b).val = (c.val a).val % 2 ^ l → (c.val b).val < 2 ^ l := by
    intro h; rw [h]; exact Nat.mod_lt _ (by positivity)
  split
  · rename_i h
    apply Spec.fail
    rintro ⟨_, _, h2, h3⟩
    rw [val_two_pow hp2 h2] at h
    have := hltpow h3
    omega
  split
  · rename_i h; exact Spec.fail (fun hC => by omega)
  rename_i hlm
  have hlm : l < modulusBits p := by omega
  apply hread hrb
  rw [if_neg (by omega)]
  split
  · rename_i h
    apply Spec.fail
    rintro ⟨_, _, _, h3⟩
    have := Nat.mod_le (c.val a).val (2 ^ l)
    omega
  rename_i hab
  set nlkB := l % k with hnlkB
  set lkB := l - nlkB with hlkB
  set delta := modulusBits p - l with hdelta
  set nlkD := delta % k with hnlkD
  set lkD := delta - nlkD with hlkD
  have hnb : nlkB ≤ l := Nat.mod_le _ _
  have hnd : nlkD ≤ delta := Nat.mod_le _ _
  refine Spec.bind (createVariable_spec hc _ True) (fun _ _ _ => trivial) hc ?_
  rintro b1 c1 e1 ⟨hb1, vb1⟩
  refine Spec.bind (createVariable_spec e1.wf _ True) (fun _ _ _ => trivial) e1.wf ?_
  rintro b2 c2 e2 ⟨hb2, vb2⟩
  refine Spec.bind (createVariable_spec e2.wf _ True) (fun _ _ _ => trivial) e2.wf ?_
  rintro z1 c3 e3 ⟨hz1, vz1⟩
  refine Spec.bind (createVariable_spec e3.wf _ True) (fun _ _ _ => trivial) e3.wf ?_
  rintro z2 c4 e4 ⟨hz2, vz2⟩
  have e04 := e1.trans (e2.trans (e3.trans e4))
  refine Spec.conseq e4.wf (truncateConstraints_spec e4.wf (hr.ext e04) (by rw [e04.ultra, hu]; rfl)
    (e04.lt ha) (e04.lt hb) ((e2.trans (e3.trans e4)).lt hb1) ((e3.trans e4).lt hb2)
    (e4.lt hz1) hz2 l lkB nlkB lkD nlkD) ?_ (fun _ _ _ _ => ⟨hlm, ha, hb⟩) ?_
  · rintro ⟨⟨⟨⟨⟨_, hl0, _, hval⟩, _⟩, _⟩, _⟩, _⟩ - -
    rw [e04.val a ha, e04.val b hb, (e2.trans (e3.trans e4)).val b1 hb1, (e3.trans e4).val b2 hb2,
      e4.val z1 hz1, vz2, vz1, vb2, vb1]
    have hlk : lkB < modulusBits p := by omega
    have hld : lkD < modulusBits p := by omega
    rw [val_two_pow hp2 hlk, val_two_pow hp2 hld, val_two_pow hp2 hlm]
    set A := (c.val a).val with hA
    set Bv := (c.val b).val with hBv
    have hAp : A < p := ZMod.val_lt _
    have hBp : Bv < p := ZMod.val_lt _
    have hBl := hltpow hval
    have hz : (A - Bv) / 2 ^ l = A / 2 ^ l := by
      rw [hval]
      have := Nat.mod_add_div A (2 ^ l)
      have h2 : A - A % 2 ^ l = 2 ^ l * (A / 2 ^ l) := by omega
      rw [h2, Nat.mul_div_cancel_left _ (by positivity)]
    rw [hz]
    set Z := A / 2 ^ l with hZ
    have hZd : Z < 2 ^ delta := by
      apply Nat.div_lt_of_lt_mul
      rw [← pow_add]
      have : l + delta = modulusBits p := by omega
      rw [this]; exact lt_trans hAp (Nat.lt_size_self p)
    have hZp : Z < p := lt_of_le_of_lt (Nat.div_le_self _ _) hAp
    have hAeq : A = Bv + 2 ^ l * Z := by
      rw [hval, hZ]; exact (Nat.mod_add_div A (2 ^ l)).symm
    have splitlt : ∀ {x i j : ℕ}, x < 2 ^ (i + j) → x / 2 ^ i < 2 ^ j := by
      intro x i j hx
      apply Nat.div_lt_of_lt_mul; rw [← pow_add]; exact hx
    have hBlt : Bv / 2 ^ lkB < 2 ^ nlkB :=
      splitlt (by have : lkB + nlkB = l := by omega
                  rw [this]; exact hBl)
    have hZlt : Z / 2 ^ lkD < 2 ^ nlkD :=
      splitlt (by have : lkD + nlkD = delta := by omega
                  rw [this]; exact hZd)
    refine ⟨?_, ?_, fun _ => ?_, fun _ => ?_, fun _ => ?_, fun _ => ?_⟩
    · have : c.val b = (Bv : ZMod p) := by rw [hBv, ZMod.natCast_val, ZMod.cast_id]
      rw [this]
      conv_lhs => rw [← Nat.mod_add_div Bv (2 ^ lkB)]
      push_cast; ring
    · have h1 : c.val a = (A : ZMod p) := by rw [hA, ZMod.natCast_val, ZMod.cast_id]
      have h2 : c.val b = (Bv : ZMod p) := by rw [hBv, ZMod.natCast_val, ZMod.cast_id]
      rw [h1, h2]
      conv_lhs => rw [hAeq, ← Nat.mod_add_div Z (2 ^ lkD)]
      push_cast; ring
    · rw [val_natCast_of_lt' (lt_of_le_of_lt (Nat.mod_le _ _) hBp)]
      exact Nat.mod_lt _ (by positivity)
    · rw [val_natCast_of_lt' (lt_of_le_of_lt (Nat.div_le_self _ _) hBp)]
      exact hBlt
    · rw [val_natCast_of_lt' (lt_of_le_of_lt (Nat.mod_le _ _) hZp)]
      exact Nat.mod_lt _ (by positivity)
    · rw [val_natCast_of_lt' (lt_of_le_of_lt (Nat.div_le_self _ _) hZp)]
      exact hZlt
  · intro _ w _ _ h _ _ _ _
    exact ⟨b1, b2, z1, z2, h⟩

theorem truncate_spec [Fact p.Prime] (hp2 : p ≠ 2) {c : Circ p} (hc : WF c)
    (hr : RangeOK c) {k : ℕ} (hu : c.ultra = some k) (a l : ℕ) :
    Spec (truncate a l) c (a < c.numVars ∧ 0 < l ∧ l < modulusBits p)
      (fun b c' => b < c'.numVars ∧ l < modulusBits p)
      (fun b w => ∃ b1 b2 z1 z2, TruncRel w a b b1 b2 z1 z2 l (l - l % k) (l % k)
        (modulusBits p - l - (modulusBits p - l) % k) ((modulusBits p - l) % k)) := by
  unfold truncate
  apply Spec.checkVar_bind (fun h => h.1); intro ha
  apply Spec.witness_bind (fun h => h.1); intro _
  dsimp only
  refine Spec.bind (createVariable_spec hc _ True) (fun _ _ _ => trivial) hc ?_
  rintro b c1 e1 ⟨hb, vb⟩
  refine Spec.bind (truncateGate_spec hp2 e1.wf (hr.ext e1) (e1.ultra.trans hu) a b l) ?_ e1.wf ?_
  · rintro ⟨⟨_, h2, h3⟩, _⟩ - -
    refine ⟨⟨e1.lt ha, hb⟩, h2, h3, ?_⟩
    rw [vb, e1.val a ha, val_two_pow hp2 h3,
      val_natCast_of_lt' (lt_of_le_of_lt (Nat.mod_le _ _) (ZMod.val_lt _))]
  rintro _ c2 e2 ⟨h3, _, _⟩
  exact Spec.pure e2.wf ⟨e2.lt hb, h3⟩ (fun w _ _ h _ => h)

end Verif.Circuit
