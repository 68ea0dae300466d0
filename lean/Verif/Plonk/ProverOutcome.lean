import Verif.Plonk.ProverTotal
import Verif.Plonk.ProverCircuit

/-!
# The rounds of the prover on a satisfied circuit
-/

set_option linter.unusedSectionVars false

namespace Verif.Plonk

open Verif.Circuit Verif.Pcs Polynomial
open Verif.Props.Finalize Verif.Props.Verifier Verif.Props.EndToEnd
open Verif.Props.CopyConstraints (SlotVar width slots next label rowNum rowDen Linked linked_of final_val)
open Verif.Props.LookupArgument (LookupsHold looked lookups table num den)

variable {p : ℕ} [Fact p.Prime]
variable {S : ℕ} {root : ZMod p} {rnd : List (ZMod p)} {c : Circ p} {f : FCirc p}
variable {G G2 : Type} [AddCommGroup G] [Module (ZMod p) G] [DecidableEq G]
  [AddCommGroup G2] [Module (ZMod p) G2] [DecidableEq G2]
variable {x : ZMod p} {g : G} {h : G2} {m : ℕ} {pk : PKey (ZMod p) G G2} {inputs : List (ZMod p)}

/-- the denominators of the product of the permutation argument are not zero -/
def PermDefined (f : FCirc p) (β γ : ZMod p) : Prop :=
  ∀ v : ℕ × ℕ → ZMod p, (∀ s y, SlotVar f.circ s y → v s = f.circ.val y) →
    ∀ j, j + 1 < f.dom.size → rowDen f v β γ j ≠ 0

/-- the denominators of the product of the lookup argument are not zero -/
def LookupDefined (f : FCirc p) (τ β γ : ZMod p) : Prop :=
  ∀ k s a b, f.circ.ultra = some k → sortedVecPolys f τ (table f k f.circ.val τ) = .ok (s, a, b) →
    ∀ j, j + 2 < f.dom.size → den f.dom.size s β γ j ≠ 0

/-- the products of the circuit exist for these challenges -/
def Defined (f : FCirc p) (τ : Option (ZMod p)) (β γ : ZMod p) : Prop :=
  PermDefined f β γ ∧ ∀ t, τ = some t → LookupDefined f t β γ

theorem option_mapM_total {α β : Type} {g : α → Option β} {l : List α} (h : ∀ a ∈ l, ∃ b, g a = some b) :
    ∃ l', l.mapM g = some l' := by
  induction l with
  | nil => exact ⟨[], rfl⟩
  | cons a l ih =>
    obtain ⟨b, hb⟩ := h a (by simp)
    obtain ⟨l', hl⟩ := ih fun a ha => h a (by simp [ha])
    exact ⟨b :: l', by rw [List.mapM_cons, hb, hl]; rfl⟩

theorem Honest.wirePolys (H : Honest S root rnd x g h m c f pk inputs) :
    wirePolys f = .ok ((wireVecs f.circ).map (fun v => f.dom.ifft (v.map f.circ.val))) := by
  have hL := linked_of H.built H.final
  have hrows : f.circ.rows.length = f.dom.size := (C25_rows H.built H.final).2.2.2.2
  have hw : ∃ l, (wireVecs f.circ).mapM (fun v => v.mapM (fun x => f.circ.witness[x]?)) = some l := by
    refine option_mapM_total fun v hv => option_mapM_total fun y hy => ?_
    obtain ⟨i, hi, rfl⟩ := List.mem_iff_getElem.1 hv
    obtain ⟨j, hj, rfl⟩ := List.mem_iff_getElem.1 hy
    have := hL.full.bound (i, j) ((wireVecs f.circ)[i][j]) (by
      unfold varAt
      rw [List.getElem?_eq_getElem hi]
      exact List.getElem?_eq_getElem hj)
    exact ⟨_, List.getElem?_eq_getElem (by rw [hL.full.wit]; exact this)⟩
  obtain ⟨l, hl⟩ := hw
  have : Plonk.wirePolys f = .ok (l.map f.dom.ifft) := by
    unfold Plonk.wirePolys
    rw [if_neg (by omega), hl]
  rw [this, ← wirePolys_eq this]

theorem slots_exist (f : FCirc p) : ∃ v : ℕ × ℕ → ZMod p, ∀ s y, SlotVar f.circ s y → v s = f.circ.val y := by
  refine ⟨fun s => (((wireVecs f.circ).getD s.1 []).map f.circ.val).getD s.2 0, fun s y hs => ?_⟩
  obtain ⟨v, hv, hy⟩ := wireVecs_slot hs
  simp [List.getD_eq_getElem?_getD, hv, hy]

theorem Honest.round1 (hroot : IsPrimitiveRoot root (2 ^ S)) (H : Honest S root rnd x g h m c f pk inputs)
    (mask : Masks (ZMod p)) :
    ∃ r1, round1 f.dom { cs := f.arith, pk := pk, mask := mask, zComm := 0 } = .ok r1 ∧ r1.cs = f.arith ∧
      r1.pk = pk ∧ r1.mask = mask ∧ r1.lk = none := by
  have hcom := H.keys hroot
  obtain ⟨-, poly, hpoly, -⟩ := Props.Lagrange.C57_public_input hroot H.built H.final H.publicInput
  unfold Plonk.round1
  have e1 : f.arith.wirePolys = _ := H.wirePolys
  have e2 : f.arith.inputPoly = _ := hpoly
  simp only [e1, e2]
  have b0 : ∀ {α β : Type} (a : α) (k : α → Except PErr β), (Except.ok a >>= k) = k a := fun _ _ => rfl
  rw [liftC, b0, hcom.batch]
  · exact ⟨_, rfl, rfl, rfl, rfl, rfl⟩
  · intro q hq
    obtain ⟨i, hi, rfl⟩ := List.mem_mapIdx.1 hq
    refine (maskPoly_length _ _ _).trans ?_
    simp [Domain.ifft]

theorem prodPerm_cases (hroot : IsPrimitiveRoot root (2 ^ S)) (H : Honest S root rnd x g h m c f pk inputs)
    (β γ : ZMod p) : (PermDefined f β γ ∧ ∃ Z, prodPermPoly f β γ = .ok Z ∧ Z.length = f.dom.size) ∨
      ¬ PermDefined f β γ ∧ prodPermPoly f β γ = .error .panic := by
  have hval := final_val H.built H.final
  by_cases hd : PermDefined f β γ
  · left
    obtain ⟨v, hv⟩ := slots_exist f
    obtain ⟨Z, hZ, -⟩ := Props.CopyConstraints.C24_polynomial H.built hroot H.final v (by rw [← hval]; exact hv) β γ
      (hd v hv)
    refine ⟨hd, Z, hZ, ?_⟩
    unfold prodPermPoly at hZ
    split at hZ
    · cases hZ
    · rw [← Except.ok.inj hZ]
      simp [Domain.ifft]
  · right
    refine ⟨hd, ?_⟩
    unfold PermDefined at hd
    push Not at hd
    obtain ⟨v, hv, j, hj, h0⟩ := hd
    exact Props.CopyConstraints.C24_panic H.built H.final v (by rw [← hval]; exact hv) β γ hj h0

/-- The rounds up to the quotient fail only by the panic for a denominator that is zero. -/
theorem Honest.rounds (hroot : IsPrimitiveRoot root (2 ^ S)) (H : Honest S root rnd x g h m c f pk inputs)
    (mask : Masks (ZMod p)) :
    ∃ r1, Plonk.round1 f.dom { cs := f.arith, pk := pk, mask := mask, zComm := 0 } = .ok r1 ∧
      ∀ τ : Option (ZMod p), (f.circ.ultra.isSome → τ.isSome) → ∃ r2, lkRound1 f.dom τ r1 = .ok r2 ∧
      ∀ β γ, (∃ r3, round2 f.dom β γ r2 = .ok r3 ∧
        ((Defined f τ β γ ∧ ∃ r, lkRound2 f.dom τ β γ r3 = .ok r) ∨
          ¬ Defined f τ β γ ∧ lkRound2 f.dom τ β γ r3 = .error (.circuit .panic))) ∨
        ¬ Defined f τ β γ ∧ round2 f.dom β γ r2 = .error (.circuit .panic) := by
  have hcom := H.keys hroot
  have hval := final_val H.built H.final
  have b0 : ∀ {α β : Type} (a : α) (k : α → Except PErr β), (Except.ok a >>= k) = k a := fun _ _ => rfl
  have b1 : ∀ {α β : Type} (a : PErr) (k : α → Except PErr β), (Except.error a >>= k) = .error a := fun _ _ => rfl
  obtain ⟨r1, h1, c1, k1, m1, l1⟩ := H.round1 hroot mask
  refine ⟨r1, h1, fun τ hτ => ?_⟩
  cases hu : f.circ.ultra with
  | none =>
    have hlk : f.arith.lookup = false := by simp [FCirc.arith, hu]
    have hdef : ∀ β γ, Defined f τ β γ ↔ PermDefined f β γ := fun β γ =>
      ⟨fun h => h.1, fun h => ⟨h, fun t _ k s a b hk => by rw [hu] at hk; cases hk⟩⟩
    refine ⟨r1, by simp [lkRound1, c1, hlk], fun β γ => ?_⟩
    unfold round2
    rw [c1, k1]
    rcases prodPerm_cases hroot H β γ with ⟨hp, Z, hZ, hl⟩ | ⟨hp, hZ⟩
    · left
      have : f.arith.prodPerm β γ = _ := hZ
      rw [this, liftC, b0]
      simp only
      rw [hcom _ ((maskPoly_length _ _ _).trans (by simp [hl])), liftP, b0]
      exact ⟨_, rfl, Or.inl ⟨(hdef β γ).2 hp, by simp [lkRound2, hlk]⟩⟩
    · right
      have : f.arith.prodPerm β γ = _ := hZ
      rw [this, liftC, b1, hdef]
      exact ⟨hp, rfl⟩
  | some k =>
    have hlk : f.arith.lookup = true := by simp [FCirc.arith, hu]
    obtain ⟨t, rfl⟩ := Option.isSome_iff_exists.1 (hτ (by rw [hu]; rfl))
    have hcu : c.ultra = some k := by rw [← final_ultra H.built H.final]; exact hu
    obtain ⟨hk, hp, hp2, hT⟩ := H.supported k hcu
    have h0 : c.val 0 = 0 := ((checkSat_ok H.built.ok.wf _).1 H.sat).zero H.built.ok.wf
    have htab := Props.LookupArgument.C26_table H.built hcu hk.le H.final t
    have hin := Props.LookupArgument.C26_complete H.built hcu H.final hT c.val h0
      ((H.gates H.inputs_length).2 k hcu) t
    obtain ⟨s, a, b, e4, -⟩ := Props.LookupArgument.C26_sorted H.built hcu hroot H.final t hin
    have hal : a.length = f.dom.size ∧ b.length = f.dom.size := by
      have e4 := e4
      unfold sortedVecPolys at e4
      split at e4
      · cases e4
      split at e4
      · cases e4
      split at e4
      · cases e4
      split at e4
      · cases e4
      simp only at e4
      split at e4
      · cases e4
      have := Except.ok.inj e4
      simp only [Prod.mk.injEq] at this
      rw [← this.2.1, ← this.2.2]
      simp [Domain.ifft]
    have hdef : ∀ β γ, Defined f (some t) β γ ↔ PermDefined f β γ ∧
        ∀ j, j + 2 < f.dom.size → den f.dom.size s β γ j ≠ 0 := by
      intro β γ
      constructor
      · exact fun h => ⟨h.1, h.2 t rfl k s a b hu (by rw [hval]; exact e4)⟩
      · rintro ⟨h1, h2⟩
        refine ⟨h1, fun t' ht k' s' a' b' hk' hs' => ?_⟩
        obtain rfl := Option.some.inj ht
        rw [hu] at hk'
        obtain rfl := Option.some.inj hk'
        rw [hval, e4] at hs'
        have := Except.ok.inj hs'
        simp only [Prod.mk.injEq] at this
        rw [← this.1]
        exact h2
    obtain ⟨hc, e5⟩ : ∃ hc, batchCommit pk.commitKey
        [maskPoly f.dom.size [mask.h1.1, mask.h1.2.1, mask.h1.2.2] a,
          maskPoly f.dom.size [mask.h2.1, mask.h2.2.1, mask.h2.2.2] b] = .ok hc := by
      refine ⟨_, hcom.batch fun q hq => ?_⟩
      simp only [List.mem_cons, List.not_mem_nil, or_false] at hq
      rcases hq with rfl | rfl
      · exact (maskPoly_length _ _ _).trans (by simp [hal.1])
      · exact (maskPoly_length _ _ _).trans (by simp [hal.2])
    have f1 : f.arith.table t = _ := htab
    have f2 : f.arith.sorted t (table f k c.val t) = _ := e4
    have e2 : lkRound1 f.dom (some t) r1 = .ok { r1 with lk := some ⟨table f k c.val t, s,
        maskPoly f.dom.size [mask.h1.1, mask.h1.2.1, mask.h1.2.2] a,
          maskPoly f.dom.size [mask.h2.1, mask.h2.2.1, mask.h2.2.2] b, hc, [], 0⟩ } := by
      unfold lkRound1
      rw [c1, hlk]
      simp only [if_true]
      rw [f1, liftC, b0, f2, liftC, b0]
      simp only
      rw [k1, m1, e5]
      rfl
    refine ⟨_, e2, fun β γ => ?_⟩
    unfold round2
    simp only
    rw [c1, k1]
    rcases prodPerm_cases hroot H β γ with ⟨hp, Z, hZ, hl⟩ | ⟨hp, hZ⟩
    · left
      have : f.arith.prodPerm β γ = _ := hZ
      rw [this, liftC, b0]
      rw [hcom _ ((maskPoly_length _ _ _).trans (by simp [hl])), liftP, b0]
      refine ⟨_, rfl, ?_⟩
      unfold lkRound2
      simp only [hlk, if_true]
      by_cases hd : ∀ j, j + 2 < f.dom.size → den f.dom.size s β γ j ≠ 0
      · left
        refine ⟨(hdef β γ).2 ⟨hp, hd⟩, ?_⟩
        obtain ⟨Q, hQ, -⟩ := Props.LookupArgument.C26_polynomial H.built hcu hroot H.final t e4 β γ hd
        have hQl : Q.length = f.dom.size := by
          have hQ := hQ
          unfold lookupProdPoly at hQ
          split at hQ
          · cases hQ
          split at hQ
          · cases hQ
          split at hQ
          · cases hQ
          split at hQ
          · cases hQ
          split at hQ
          · cases hQ
          rw [← Except.ok.inj hQ]
          simp [Domain.ifft]
        have : f.arith.lookupProd t β γ (table f k c.val t) s = _ := hQ
        rw [this, liftC, b0]
        rw [hcom _ ((maskPoly_length _ _ _).trans (by simp [hQl]))]
        exact ⟨_, rfl⟩
      · right
        refine ⟨fun h => hd ((hdef β γ).1 h).2, ?_⟩
        push Not at hd
        have : f.arith.lookupProd t β γ (table f k c.val t) s = _ :=
          Props.LookupArgument.C26_panic H.built hcu H.final t e4 β γ hd
        rw [this, liftC, b1]
    · right
      have : f.arith.prodPerm β γ = _ := hZ
      rw [this, liftC, b1, hdef]
      exact ⟨fun h => hp h.1, rfl⟩

/-- the rounds up to the quotient succeed exactly when the products exist -/
theorem Honest.ran_iff (hroot : IsPrimitiveRoot root (2 ^ S)) (H : Honest S root rnd x g h m c f pk inputs)
    (mask : Masks (ZMod p)) {τ : Option (ZMod p)} (hτ : f.circ.ultra.isSome → τ.isSome) (β γ : ZMod p) :
    (∃ r, Ran f.dom τ β γ { cs := f.arith, pk := pk, mask := mask, zComm := 0 } r) ↔ Defined f τ β γ := by
  obtain ⟨r1, h1, h⟩ := H.rounds hroot mask
  obtain ⟨r2, h2, h⟩ := h τ hτ
  constructor
  · rintro ⟨r, x1, x2, x3, f1, f2, f3, f4⟩
    rw [h1] at f1
    obtain rfl := Except.ok.inj f1
    rw [h2] at f2
    obtain rfl := Except.ok.inj f2
    rcases h β γ with ⟨r3, h3, ⟨hd, -⟩ | ⟨-, h4⟩⟩ | ⟨-, h3⟩
    · exact hd
    · rw [h3] at f3
      obtain rfl := Except.ok.inj f3
      rw [h4] at f4
      cases f4
    · rw [h3] at f3
      cases f3
  · intro hd
    rcases h β γ with ⟨r3, h3, ⟨-, r, h4⟩ | ⟨hn, -⟩⟩ | ⟨hn, -⟩
    · exact ⟨r, r1, r2, r3, h1, h2, h3, h4⟩
    · exact absurd hd hn
    · exact absurd hd hn

end Verif.Plonk
