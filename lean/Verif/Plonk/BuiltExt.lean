import Verif.Plonk.FinalizeLemmas

/-!
# Gadgets build circuits

A gadget that appends variables, gates that are neither public-input nor lookup gates, and range checks (`Frame`) turns a
circuit that can be built into one that can be built, so that what is proved of finalization, keys, the prover and the
verifier for all built circuits holds for the circuits made with the gadgets.
-/

namespace Verif.Plonk

open Verif.Circuit

variable {p : ℕ} [Fact p.Prime]

theorem Built.vars {c : Circ p} (h : Built c) (xs : List (ZMod p)) :
    Built { c with numVars := c.numVars + xs.length, witness := c.witness ++ xs } := by
  induction xs generalizing c with
  | nil => simpa using h
  | cons x xs ih =>
    have h1 : Built { c with numVars := c.numVars + 1, witness := c.witness ++ [x] } :=
      Built.var c _ x c.numVars h (by
        unfold createVariable; rw [if_neg (by simp [h.ok.wf.opn])])
    have := ih h1
    simpa [Nat.add_assoc, Nat.add_comm 1] using this

theorem Built.gates {c : Circ p} (h : Built c) (rs : List (Row p))
    (hr : ∀ r ∈ rs, r.sel.io = false ∧ r.sel.lookup = 0)
    (hw : ∀ r ∈ rs, r.w0 < c.numVars ∧ r.w1 < c.numVars ∧ r.w2 < c.numVars ∧ r.w3 < c.numVars ∧ r.w4 < c.numVars) :
    Built { c with rows := c.rows ++ rs } := by
  induction rs generalizing c with
  | nil => simpa using h
  | cons r rs ih =>
    obtain ⟨a0, a1, a2, a3, a4⟩ := hw r (by simp)
    obtain ⟨b0, b1⟩ := hr r (by simp)
    have h1 : Built { c with rows := c.rows ++ [r] } :=
      Built.gate c _ r.w0 r.w1 r.w2 r.w3 r.w4 r.sel h b0 b1 a0 a1 a2 a3 a4 (by
        unfold insertGate; rw [if_neg (by simp [h.ok.wf.opn])])
    have := ih h1 (fun x hx => hr x (by simp [hx])) (fun x hx => hw x (by simp [hx]))
    simpa using this

theorem Built.rangeChecks {c : Circ p} (h : Built c) (vs : List ℕ) (hu : vs ≠ [] → c.ultra ≠ none)
    (hv : ∀ v ∈ vs, v < c.numVars) : Built { c with rangeVars := c.rangeVars ++ vs } := by
  induction vs generalizing c with
  | nil => simpa using h
  | cons v vs ih =>
    have hlt := hv v (by simp)
    have h1 : Built { c with rangeVars := c.rangeVars ++ [v] } :=
      Built.range c _ v h (by
        unfold addRangeCheckVariable
        rw [if_neg (hu (by simp)), if_neg (by simp [h.ok.wf.opn]), if_neg (by omega)])
    have := ih h1 (fun _ => hu (by simp)) (fun x hx => hv x (by simp [hx]))
    simpa using this

/-- A gadget turns a circuit that can be built into one that can be built. -/
theorem Built.ext {c c' : Circ p} (h : Built c) (hw : WF c') (hn : c.numVars ≤ c'.numVars)
    (hv : ∀ i, i < c.numVars → c'.val i = c.val i) (hf : Frame c c') : Built c' := by
  have hwf := h.ok.wf
  obtain ⟨xs, hxs⟩ : ∃ xs, c'.witness = c.witness ++ xs := by
    refine ⟨c'.witness.drop c.numVars, ?_⟩
    have : c'.witness.take c.numVars = c.witness := by
      refine List.ext_getElem (by rw [List.length_take, hw.len, hwf.len]; omega) fun i h1 h2 => ?_
      have hi : i < c.numVars := by rw [← hwf.len]; exact h2
      have := hv i hi
      unfold Circ.val at this
      rw [List.getD_eq_getElem _ _ (by rw [hw.len]; omega), List.getD_eq_getElem _ _ h2] at this
      rw [List.getElem_take, this]
    conv_lhs => rw [← List.take_append_drop c.numVars c'.witness, this]
  obtain ⟨rs, hrs, hplain⟩ := hf.rows
  obtain ⟨us, hus, hnone⟩ := hf.ranges
  have hlen : c'.numVars = c.numVars + xs.length := by
    rw [← hw.len, hxs, List.length_append, hwf.len]
  have h1 := h.vars xs
  have h2 := h1.gates rs hplain fun r hr => by
    rw [← hlen]
    exact hw.wires r (by rw [hrs]; exact List.mem_append_right _ hr)
  have h3 := h2.rangeChecks us (fun hne h0 => hne (hnone h0)) fun v hv' => by
    show v < c.numVars + xs.length
    rw [← hlen]
    exact hw.ranges v (by rw [hus]; exact List.mem_append_right _ hv')
  have : c' = ⟨c.numVars + xs.length, c.rows ++ rs, c.rangeVars ++ us, c.pubIds, c.witness ++ xs, c.domSize, c.ultra,
      c.numTableElems, c.tableGateIds⟩ := by
    rcases c' with ⟨a1, a2, a3, a4, a5, a6, a7, a8, a9⟩
    have ho := hw.opn
    have ho' := hwf.opn
    obtain ⟨t1, t2⟩ := hf.tables
    have t3 := hf.ultra
    have t4 := hf.pub
    simp only at hlen hrs hus t4 hxs ho t3 t2 t1
    rw [hlen, hrs, hus, t4, hxs, ho, t3, t2, t1, ho']
  rw [this]
  exact h3

theorem Built.of_ext {c c' : Circ p} (h : Built c) (e : Ext c c') : Built c' :=
  h.ext e.wf e.vars e.val e.frame

end Verif.Plonk
