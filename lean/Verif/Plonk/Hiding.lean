import Verif.Props.Prover

/-!
# What the prover reveals of the polynomials of the witness
-/

set_option linter.unusedSectionVars false

namespace Verif.Plonk

open Verif.Circuit Verif.Pcs Polynomial
open Verif.Props.Finalize Verif.Props.Verifier Verif.Props.EndToEnd Verif.Props.Prover
open Verif.Props.CopyConstraints (SlotVar linked_of final_val)

variable {p : ℕ} [Fact p.Prime] {S : ℕ} {root : ZMod p} {rnd : List (ZMod p)}
variable {G G2 : Type} [AddCommGroup G] [Module (ZMod p) G] [DecidableEq G]
  [AddCommGroup G2] [Module (ZMod p) G2] [DecidableEq G2]

/-- the polynomial of the values of a wire, before it is masked -/
noncomputable def column (f : FCirc p) (i : ℕ) : (ZMod p)[X] :=
  toPoly (f.dom.ifft (((wireVecs f.circ).getD i []).map f.circ.val))

/-- the mask of a wire -/
noncomputable def wireMask (n : ℕ) (m : ZMod p × ZMod p) : (ZMod p)[X] := (C m.1 + C m.2 * X) * (X ^ n - 1)

/-- the mask of the permutation product -/
noncomputable def prodMask (n : ℕ) (m : ZMod p × ZMod p × ZMod p) : (ZMod p)[X] :=
  (C m.1 + C m.2.1 * X + C m.2.2 * X ^ 2) * (X ^ n - 1)

variable {c : Circ p} {f : FCirc p} {x : ZMod p} {g : G} {h : G2} {m : ℕ} {pk : PKey (ZMod p) G G2}
  {inputs : List (ZMod p)}

theorem toPoly_pair (a b : ZMod p) : toPoly [a, b] = C a + C b * X := by
  rw [toPoly_cons, toPoly_cons, toPoly_nil]
  ring

theorem toPoly_triple (a b c : ZMod p) : toPoly [a, b, c] = C a + C b * X + C c * X ^ 2 := by
  rw [toPoly_cons, toPoly_cons, toPoly_cons, toPoly_nil]
  ring

/-- the masked polynomials of a run -/
theorem ran_masked {mask : Masks (ZMod p)} {τ : Option (ZMod p)}
    {β γ : ZMod p} {r : Run (ZMod p) G G2} {I : Inst (ZMod p)}
    (hr : Ran f.dom τ β γ { cs := f.arith, pk := pk, mask := mask, zComm := 0 } r)
    (hI : Tracks (kzg x g) f.dom (openKey x g h) r I) :
    (∀ i < I.nw, I.w i = column f i + wireMask f.dom.size (mask.wire i)) ∧
    ∃ q, prodPermPoly f β γ = .ok q ∧ I.z = toPoly q + prodMask f.dom.size mask.z := by
  obtain ⟨hcs, hpk', ⟨ps, hps, hws⟩, hwc, -, ⟨zz, hzz, hrz⟩, -⟩ := ran_left hr rfl
  simp only [FCirc.arith] at hps hzz
  have hps := wirePolys_eq hps
  refine ⟨fun i hi => ?_, zz, hzz, ?_⟩
  · rw [← map_toPoly_get hI.polys.wires hi]
    have hlen := map_toPoly_length hI.polys.wires
    rw [hws, List.length_mapIdx, hps, List.length_map] at hlen
    have hi' : i < (wireVecs f.circ).length := by omega
    rw [hws, hps, List.getD_eq_getElem?_getD, List.getElem?_mapIdx, List.getElem?_map,
      List.getElem?_eq_getElem hi']
    simp only [Option.map_some, Option.getD_some]
    rw [toPoly_maskPoly, toPoly_pair]
    unfold column wireMask
    rw [List.getD_eq_getElem?_getD, List.getElem?_eq_getElem hi', Option.getD_some]
    ring
  · rw [← hI.polys.z, hrz, toPoly_maskPoly, toPoly_triple]
    unfold prodMask
    ring

/-- the polynomial of a wire interpolates the values of its variables -/
theorem column_spec (hroot : IsPrimitiveRoot root (2 ^ S)) (hc : Built c) (hf : finalize S root rnd c = .ok f)
    (i : ℕ) : (column f i).degree < f.dom.size ∧
      ∀ j v, SlotVar f.circ (i, j) v → (column f i).eval (f.dom.gen ^ j) = f.circ.val v := by
  obtain ⟨hdom, -⟩ := finalize_ok hf
  obtain ⟨hd, ho⟩ := good_of_newDomain hroot hdom
  have hL := linked_of hc hf
  constructor
  · refine (toPoly_degree_lt _).trans_le ?_
    simp [Domain.ifft]
  · intro j v hs
    obtain ⟨l, hl, hj⟩ := wireVecs_slot hs
    simp only at hl hj
    have hll := hL.full.len l (List.mem_of_getElem? hl)
    have hjn : j < f.dom.size := by
      rw [← hll]
      exact (List.getElem?_eq_some_iff.1 hj).1
    unfold column
    rw [List.getD_eq_getElem?_getD (l := wireVecs f.circ), hl, Option.getD_some, toPoly_eval,
      ifft_eval f.dom hd.prim _ (by simp [hll]) _ hjn, List.getD_eq_getElem?_getD, List.getElem?_map, hj]
    rfl

theorem wireMask_eval {n : ℕ} (m : ZMod p × ZMod p) (y : ZMod p) :
    (wireMask n m).eval y = (m.1 + m.2 * y) * (y ^ n - 1) := by
  simp [wireMask]

theorem prodMask_eval {n : ℕ} (m : ZMod p × ZMod p × ZMod p) (y : ZMod p) :
    (prodMask n m).eval y = (m.1 + m.2.1 * y + m.2.2 * y ^ 2) * (y ^ n - 1) := by
  simp [prodMask]

end Verif.Plonk
