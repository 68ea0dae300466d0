import Verif.Plonk.Hiding
import Verif.Plonk.Agree
import Verif.Plonk.IdealSplit
import Verif.Plonk.ProverOutcome
import Verif.Props.ProverOutcome

/-!
# The randomness of the TurboPlonk prover

The masks of a proof are determined by the values of the masked polynomials at the secret point, at the challenge and
at their shifts.  Two witnesses whose masked polynomials have the same values there have the same proof.
-/

set_option linter.unusedSectionVars false

namespace Verif.Plonk

open Verif.Circuit Verif.Pcs Polynomial
open Verif.Props.Finalize Verif.Props.Verifier Verif.Props.EndToEnd Verif.Props.Prover
open Verif.Props.CopyConstraints (SlotVar linked_of final_val)

variable {p : ℕ} [Fact p.Prime] {S : ℕ} {root : ZMod p} {rnd : List (ZMod p)}
variable {G G2 : Type} [AddCommGroup G] [Module (ZMod p) G] [DecidableEq G]
  [AddCommGroup G2] [Module (ZMod p) G2] [DecidableEq G2]

/-- the randomness of the prover for `len` TurboPlonk instances: for every instance two coefficients for each of the
five wires and three for the permutation product, and four randomizers of the quotient -/
abbrev TurboRand (p len : ℕ) : Type :=
  (Fin len → (Fin 5 → ZMod p × ZMod p) × ZMod p × ZMod p × ZMod p) × (Fin 4 → ZMod p)

/-- the masks of an instance -/
def TurboRand.masks {len : ℕ} (r : TurboRand p len) (i : ℕ) : Masks (ZMod p) where
  wire j := if h : i < len ∧ j < 5 then (r.1 ⟨i, h.1⟩).1 ⟨j, h.2⟩ else (0, 0)
  z := if h : i < len then (r.1 ⟨i, h⟩).2 else (0, 0, 0)
  h1 := (0, 0, 0)
  h2 := (0, 0, 0)
  prod := (0, 0, 0)

/-- the randomizers of the quotient -/
def TurboRand.quot {len : ℕ} (r : TurboRand p len) (i : ℕ) : ZMod p := if h : i < 4 then r.2 ⟨i, h⟩ else 0

/-- the permutation product before it is masked -/
noncomputable def unmaskedZ (f : FCirc p) (β γ : ZMod p) : (ZMod p)[X] :=
  match prodPermPoly f β γ with
  | .ok q => toPoly q
  | .error _ => 0

open Classical in
/-- the quotient of the prover -/
noncomputable def quotList (gen : ZMod p) (d quot : Domain (ZMod p)) (α β γ : ZMod p) (L : List (Case p G G2))
    (masks : ℕ → Masks (ZMod p)) : List (ZMod p) :=
  if h : ∃ q, ∃ Rs, List.Forall₂ (Ran d none β γ) (startRuns L masks) Rs ∧
    quotPoly gen d quot 5 none α β γ Rs = .ok q then h.choose else []

/-- the values of the masked polynomials that determine the proof: the wires at `x` and `ζ`, the products at `x`, `ω x`
and `ζ ω`, the parts of the quotient but the last at `x` -/
noncomputable def profile {len : ℕ} (gen x : ZMod p) (d quot : Domain (ZMod p)) (α β γ ζ : ZMod p)
    (Y : Fin len → Case p G G2) (r : TurboRand p len) : TurboRand p len :=
  (fun i => (fun j =>
      ((column (Y i).final j + wireMask d.size ((r.1 i).1 j)).eval x,
        (column (Y i).final j + wireMask d.size ((r.1 i).1 j)).eval ζ),
      (unmaskedZ (Y i).final β γ + prodMask d.size (r.1 i).2).eval x,
      (unmaskedZ (Y i).final β γ + prodMask d.size (r.1 i).2).eval (d.gen * x),
      (unmaskedZ (Y i).final β γ + prodMask d.size (r.1 i).2).eval (ζ * d.gen)),
    fun k => (toPoly ((chunks d.size 5 (quotList gen d quot α β γ (List.ofFn Y) r.masks)).getD k [])).eval x +
      r.quot k * x ^ (d.size + 2) - (if (k : ℕ) = 0 then 0 else r.quot (k - 1)))

/-! ## The profile determines the randomness -/

theorem two_points {a b c d x y u v : ZMod p} (hxy : x ≠ y) (hu : u ≠ 0) (hv : v ≠ 0)
    (h1 : (a + b * x) * u = (c + d * x) * u) (h2 : (a + b * y) * v = (c + d * y) * v) : a = c ∧ b = d := by
  have e1 := mul_right_cancel₀ hu h1
  have e2 := mul_right_cancel₀ hv h2
  have e3 : (b - d) * (x - y) = 0 := by linear_combination e1 - e2
  have hb : b = d := by
    rcases mul_eq_zero.1 e3 with h | h
    · exact sub_eq_zero.1 h
    · exact absurd (sub_eq_zero.1 h) hxy
  subst hb
  exact ⟨add_right_cancel e1, rfl⟩

theorem three_points {a b c a' b' c' x y z u v w : ZMod p} (hxy : x ≠ y) (hxz : x ≠ z) (hyz : y ≠ z) (hu : u ≠ 0)
    (hv : v ≠ 0) (hw : w ≠ 0) (h1 : (a + b * x + c * x ^ 2) * u = (a' + b' * x + c' * x ^ 2) * u)
    (h2 : (a + b * y + c * y ^ 2) * v = (a' + b' * y + c' * y ^ 2) * v)
    (h3 : (a + b * z + c * z ^ 2) * w = (a' + b' * z + c' * z ^ 2) * w) : a = a' ∧ b = b' ∧ c = c' := by
  have e1 := mul_right_cancel₀ hu h1
  have e2 := mul_right_cancel₀ hv h2
  have e3 := mul_right_cancel₀ hw h3
  have hxy' := sub_ne_zero.2 hxy
  have hxz' := sub_ne_zero.2 hxz
  have hyz' := sub_ne_zero.2 hyz
  have e4 : (b - b') + (c - c') * (x + y) = 0 := by
    refine (mul_eq_zero.1 (?_ : ((b - b') + (c - c') * (x + y)) * (x - y) = 0)).resolve_right hxy'
    linear_combination e1 - e2
  have e5 : (b - b') + (c - c') * (x + z) = 0 := by
    refine (mul_eq_zero.1 (?_ : ((b - b') + (c - c') * (x + z)) * (x - z) = 0)).resolve_right hxz'
    linear_combination e1 - e3
  have e6 : c - c' = 0 := by
    refine (mul_eq_zero.1 (?_ : (c - c') * (y - z) = 0)).resolve_right hyz'
    linear_combination e4 - e5
  have hc := sub_eq_zero.1 e6
  rw [e6, zero_mul, add_zero] at e4
  have hb := sub_eq_zero.1 e4
  subst hc hb
  exact ⟨by linear_combination e1, rfl, rfl⟩

/-- the masks are determined by the values -/
theorem profile_injective {len : ℕ} {gen x : ZMod p} {d quot : Domain (ZMod p)} {α β γ ζ : ZMod p}
    {Y : Fin len → Case p G G2} (hx0 : x ≠ 0) (hg : d.gen ^ d.size = 1) (hg1 : d.gen ≠ 1)
    (hx : x ^ d.size ≠ 1) (hζ : ζ ^ d.size ≠ 1) (hxζ : x ≠ ζ) (hxζ' : x ≠ ζ * d.gen) :
    Function.Injective (profile gen x d quot α β γ ζ Y) := by
  intro r s h
  have hg0 : d.gen ≠ 0 := by
    intro h0
    rw [h0, zero_pow (size_pos d).ne'] at hg
    exact zero_ne_one hg
  have hx' := sub_ne_zero.2 hx
  have hζ' := sub_ne_zero.2 hζ
  have hgx : (d.gen * x) ^ d.size - 1 ≠ 0 := by rw [mul_pow, hg, one_mul]; exact hx'
  have hζg : (ζ * d.gen) ^ d.size - 1 ≠ 0 := by rw [mul_pow, hg, mul_one]; exact hζ'
  have h1 : r.1 = s.1 := by
    funext i
    have hi := congrFun (congrArg Prod.fst h) i
    simp only [profile, Prod.mk.injEq] at hi
    obtain ⟨hw, hz1, hz2, hz3⟩ := hi
    refine Prod.ext (funext fun j => ?_) ?_
    · have hj := congrFun hw j
      simp only [Prod.mk.injEq, eval_add, wireMask_eval, add_right_inj] at hj
      obtain ⟨a, b⟩ := two_points hxζ hx' hζ' hj.1 hj.2
      exact Prod.ext a b
    · simp only [eval_add, prodMask_eval, add_right_inj] at hz1 hz2 hz3
      obtain ⟨a, b, c⟩ := three_points (fun h => hg1 (mul_right_cancel₀ hx0 (by rw [← h, one_mul])))
        hxζ' (fun h => hxζ (mul_left_cancel₀ hg0 (by rw [h, mul_comm]))) hx' hgx hζg hz1 hz2 hz3
      exact Prod.ext a (Prod.ext b c)
  have hm : r.masks = s.masks := by
    funext i
    simp only [TurboRand.masks, h1]
  have hk : ∀ k < 4, r.quot k = s.quot k := by
    intro k
    induction k with
    | zero =>
      intro hk
      have e := congrFun (congrArg Prod.snd h) ⟨0, hk⟩
      simp only [profile, hm, if_true, sub_zero, add_right_inj] at e
      exact mul_right_cancel₀ (pow_ne_zero _ hx0) e
    | succ k ih =>
      intro hk
      have e := congrFun (congrArg Prod.snd h) ⟨k + 1, hk⟩
      simp only [profile, hm, Nat.add_eq_zero_iff, one_ne_zero, and_false, if_false, Nat.add_sub_cancel,
        ih (by omega), sub_left_inj, add_right_inj] at e
      exact mul_right_cancel₀ (pow_ne_zero _ hx0) e
  refine Prod.ext h1 (funext fun k => ?_)
  have := hk k k.2
  simpa only [TurboRand.quot, k.2, dif_pos] using this

/-! ## What is known of the instances of a run -/

theorem isInputs_unique {d : Domain (ZMod p)} (hd : Good d) {b : Bool} {l : List (ZMod p)} {P Q : (ZMod p)[X]}
    (hP : IsInputs d b l P) (hQ : IsInputs d b l Q) : P = Q := by
  refine eq_of_degrees_lt_of_eval_index_eq (Finset.range d.size) (v := point d) hd.inj
    (by simpa using hP.1) (by simpa using hQ.1) fun j hj => ?_
  have hj := Finset.mem_range.1 hj
  unfold point
  obtain ⟨-, hP⟩ := hP
  obtain ⟨-, hQ⟩ := hQ
  cases b with
  | false => rw [hP.2 j hj, hQ.2 j hj]
  | true =>
    obtain ⟨a1, b1, e1, l1, -, f1⟩ := hP
    obtain ⟨a2, b2, e2, l2, -, f2⟩ := hQ
    have hl := congrArg List.length (e1.symm.trans e2)
    simp only [List.length_append] at hl
    obtain ⟨rfl, rfl⟩ := List.append_inj (e1.symm.trans e2) (by omega)
    rw [f1 j hj, f2 j hj]

/-- the instance of a run, with its key and masks -/
structure TurboInst (d : Domain (ZMod p)) (β γ : ZMod p) (y : Case p G G2) (mask : Masks (ZMod p)) (I : Inst (ZMod p)) :
    Prop where
  lookup : I.lookup = none
  w : ∀ j < 5, I.w j = column y.final j + wireMask d.size (mask.wire j)
  z : I.z = unmaskedZ y.final β γ + prodMask d.size mask.z
  σ : ∀ j < 5, I.σ j = toPoly (y.key.sigmas.getD j [])
  q : ∀ j < 13, I.q j = toPoly (y.key.selectors.getD j [])
  k : ∀ j < 5, I.k j = y.key.vk.k.getD j 0
  merged : I.merged = y.key.vk.merged
  inputs : I.inputs = y.inputs
  pi : IsInputs d I.merged I.inputs I.pi

variable {x : ZMod p} {g : G} {h : G2} {m : ℕ}

theorem turboInst {y : Case p G G2} (H : Honest S root rnd x g h m y.circ y.final y.key y.inputs)
    (ht : y.circ.ultra = none) {mask : Masks (ZMod p)} {τ : Option (ZMod p)} {β γ : ZMod p} {r : Run (ZMod p) G G2}
    {I : Inst (ZMod p)} (hr : Ran y.final.dom τ β γ { cs := y.final.arith, pk := y.key, mask := mask, zComm := 0 } r)
    (hI : Tracks (kzg x g) y.final.dom (openKey x g h) r I) : TurboInst y.final.dom β γ y mask I := by
  have hL := ran_left hr rfl
  have hlook : I.lookup = none := by
    have := hI.lookup
    rw [hL.cs] at this
    have e : y.final.arith.lookup = y.final.circ.ultra.isSome := rfl
    rw [e, final_ultra H.built H.final, ht] at this
    cases hl : I.lookup with
    | none => rfl
    | some l => rw [hl] at this; cases this
  have hnw := Inst.nw_turbo hlook
  have hnq : I.nq = 13 := by simp [Inst.nq, hlook]
  obtain ⟨hw, q, hq, hz⟩ := ran_masked hr hI
  have hpk : r.pk = y.key := hL.pk
  have hσ := hI.polys.sigmas
  have hs := hI.polys.selectors
  have hk := hI.polys.k
  have hvk := hI.vk
  rw [hpk] at hσ hs hk hvk
  refine ⟨hlook, fun j hj => hw j (by omega), ?_, fun j hj => ?_, fun j hj => ?_, fun j hj => ?_, ?_, ?_, hI.inputs⟩
  · rw [hz]
    unfold unmaskedZ
    rw [hq]
  · rw [map_toPoly_get hσ (by omega)]
  · rw [map_toPoly_get hs (by omega)]
  · rw [hk, List.getD_eq_getElem?_getD, getElem?_map_range _ _ _ (by omega)]
    rfl
  · rw [hvk]
    rfl
  · have := hI.publicInput
    rw [hL.cs] at this
    have e : y.final.arith.publicInput = publicInput y.final.circ := rfl
    rw [e, H.publicInput] at this
    exact (Except.ok.inj this).symm

theorem TurboInst.same {d : Domain (ZMod p)} (hd : Good d) {β γ β' γ' : ZMod p} {y y' : Case p G G2}
    {mask mask' : Masks (ZMod p)} {I J : Inst (ZMod p)} (hI : TurboInst d β γ y mask I) (hJ : TurboInst d β' γ' y' mask' J)
    (hkey : y.key = y'.key) (hin : y.inputs = y'.inputs) : Same I J where
  left := hI.lookup
  right := hJ.lookup
  k i hi := by rw [hI.k i hi, hJ.k i hi, hkey]
  σ i hi := by rw [hI.σ i hi, hJ.σ i hi, hkey]
  q i hi := by rw [hI.q i hi, hJ.q i hi, hkey]
  inputs := by rw [hI.inputs, hJ.inputs, hin]
  pi := by
    have h1 := hI.pi
    have h2 := hJ.pi
    rw [hI.merged, hI.inputs, hkey, hin] at h1
    rw [hJ.merged, hJ.inputs] at h2
    exact isInputs_unique hd h1 h2

/-- the rounds are deterministic -/
theorem ran_unique {d : Domain (ZMod p)} {τ : Option (ZMod p)} {β γ : ZMod p} {r₀ r r' : Run (ZMod p) G G2}
    (h1 : Ran d τ β γ r₀ r) (h2 : Ran d τ β γ r₀ r') : r = r' := by
  obtain ⟨a, b, c, e1, e2, e3, e4⟩ := h1
  obtain ⟨a', b', c', f1, f2, f3, f4⟩ := h2
  rw [e1] at f1
  obtain rfl := Except.ok.inj f1
  rw [e2] at f2
  obtain rfl := Except.ok.inj f2
  rw [e3] at f3
  obtain rfl := Except.ok.inj f3
  rw [e4] at f4
  exact Except.ok.inj f4

theorem forall₂_unique {A B : Type} {R : A → B → Prop} (hR : ∀ a b b', R a b → R a b' → b = b') {l : List A}
    {m m' : List B} (h1 : List.Forall₂ R l m) (h2 : List.Forall₂ R l m') : m = m' := by
  induction h1 generalizing m' with
  | nil => cases h2; rfl
  | cons a _ ih =>
    cases h2 with
    | cons b h => rw [hR _ _ _ a b, ih h]

theorem quotList_eq {gen : ZMod p} {d quot : Domain (ZMod p)} {α β γ : ZMod p} {L : List (Case p G G2)}
    {masks : ℕ → Masks (ZMod p)} {Rs : List (Run (ZMod p) G G2)} {q : List (ZMod p)}
    (h1 : List.Forall₂ (Ran d none β γ) (startRuns L masks) Rs) (h2 : quotPoly gen d quot 5 none α β γ Rs = .ok q) :
    quotList gen d quot α β γ L masks = q := by
  have h : ∃ q, ∃ Rs, List.Forall₂ (Ran d none β γ) (startRuns L masks) Rs ∧
    quotPoly gen d quot 5 none α β γ Rs = .ok q := ⟨q, Rs, h1, h2⟩
  unfold quotList
  rw [dif_pos h]
  obtain ⟨Rs', h3, h4⟩ := h.choose_spec
  obtain rfl := forall₂_unique (R := Ran d none β γ) (fun _ _ _ a b => ran_unique a b) h1 h3
  rw [h2] at h4
  exact (Except.ok.inj h4).symm

/-- the commitments to the wires -/
theorem round1_comms (hroot : IsPrimitiveRoot root (2 ^ S)) {y : Case p G G2}
    (H : Honest S root rnd x g h m y.circ y.final y.key y.inputs) (ht : y.circ.ultra = none) {mask : Masks (ZMod p)}
    {r1 : Run (ZMod p) G G2}
    (hr : round1 y.final.dom { cs := y.final.arith, pk := y.key, mask := mask, zComm := 0 } = .ok r1) :
    r1.lk = none ∧ r1.cs = y.final.arith ∧ r1.wireComms = (List.range 5).map (fun j =>
      (column y.final j + wireMask y.final.dom.size (mask.wire j)).eval x • g) := by
  have hcom := H.keys hroot
  unfold Plonk.round1 at hr
  have e1 : y.final.arith.wirePolys = _ := H.wirePolys
  obtain ⟨ps, e2, hr⟩ := except_bind_ok hr
  have e2 := liftC_ok e2
  simp only at e2
  rw [e1] at e2
  obtain rfl := Except.ok.inj e2
  obtain ⟨cs, e3, hr⟩ := except_bind_ok hr
  have e3 := liftP_ok e3
  simp only at e3
  rw [hcom.batch (by
    intro q hq
    obtain ⟨i, hi, rfl⟩ := List.mem_mapIdx.1 hq
    refine (maskPoly_length _ _ _).trans ?_
    simp [Domain.ifft])] at e3
  obtain ⟨pi, -, hr⟩ := except_bind_ok hr
  rw [← Except.ok.inj hr]
  refine ⟨rfl, rfl, ?_⟩
  simp only
  rw [← Except.ok.inj e3]
  have hwl : (wireVecs y.final.circ).length = 5 := by
    have := final_ultra H.built H.final
    rw [ht] at this
    unfold wireVecs
    rw [this]
    simp
  refine List.ext_getElem (by simp [hwl]) fun j h1 h2 => ?_
  simp only [List.length_map, List.length_range] at h2
  simp only [List.getElem_map, List.getElem_mapIdx, List.getElem_range]
  rw [toPoly_maskPoly, toPoly_pair]
  show eval x _ • g = _
  congr 2
  unfold column wireMask
  rw [List.getD_eq_getElem?_getD, List.getElem?_eq_getElem (by omega), Option.getD_some]
  ring

/-- the first challenges without lookups -/
theorem started_turbo {oracle : List (Call (ZMod p) G G2) → ZMod p} {extra : Option (List ℕ)} {d : Domain (ZMod p)}
    {rs r1 r2 : List (Run (ZMod p) G G2)} {T : List (Call (ZMod p) G G2)} {τ : Option (ZMod p)} {β γ : ZMod p}
    (hs : Started oracle extra d rs r1 r2 T τ β γ) (hlk : ∀ r ∈ r1, r.lk = none ∧ r.cs.lookup = false)
    {pis : List (List (ZMod p))} (hpis : rs.mapM (fun r => liftC r.cs.publicInput) = .ok pis)
    {π : BProof (ZMod p) G} (hw : r1.map (·.wireComms) = π.wires) (hl : ∀ l ∈ π.lookups, l = none)
    (hvk : ∀ r ∈ rs, r.pk.vk.lookup = none) :
    τ = none ∧ β = (challenges oracle extra (rs.map (·.pk.vk)) pis π).β ∧
      γ = (challenges oracle extra (rs.map (·.pk.vk)) pis π).γ := by
  obtain ⟨pis', T2, T3, h1, h2, h3, h4, h5, h6⟩ := hs.drawn
  rw [hpis] at h1
  obtain rfl := Except.ok.inj h1
  have e1 : r1.any (·.cs.lookup) = false := by
    rw [List.any_eq_false]
    intro r hr
    rw [(hlk r hr).2]
    simp
  rw [e1] at h2
  simp only [askTau, Bool.false_eq_true, if_false, Prod.mk.injEq] at h2
  have e2 : r2 = r1 := by
    have := hs.h2
    have h : r1.mapM (lkRound1 d τ) = .ok r1 := by
      have h0 : ∀ l : List (Run (ZMod p) G G2), (∀ r ∈ l, r.cs.lookup = false) → l.mapM (lkRound1 d τ) = .ok l := by
        intro l
        induction l with
        | nil => intro _; rfl
        | cons r l ih =>
          intro hl
          rw [List.mapM_cons, ih fun r hr => hl r (by simp [hr])]
          unfold lkRound1
          rw [hl r (by simp)]
          rfl
      exact h0 r1 fun r hr => (hlk r hr).2
    rw [h] at this
    exact (Except.ok.inj this).symm
  have e3 : r2.filterMap (·.lk.map (fun l => Call.commitments (F := ZMod p) (G2 := G2) "h_poly_comms" l.hComms)) = [] := by
    rw [List.filterMap_eq_nil_iff]
    intro r hr
    rw [e2] at hr
    rw [(hlk r hr).1]
    rfl
  have e4 : π.lookups.filterMap (·.map (fun l => Call.commitments (F := ZMod p) (G2 := G2) "h_poly_comms" l.h)) = [] := by
    rw [List.filterMap_eq_nil_iff]
    intro l hl'
    rw [hl l hl']
    rfl
  have e5 : (rs.map (·.pk.vk)).any (·.lookup.isSome) = false := by
    rw [List.any_eq_false]
    intro v hv
    obtain ⟨r, hr, rfl⟩ := List.mem_map.1 hv
    rw [hvk r hr]
    simp
  have e6 : π.wires.map (Call.commitments (F := ZMod p) (G2 := G2) "witness_poly_comms" ·) =
      r1.map (Call.commitments "witness_poly_comms" ·.wireComms) := by
    rw [← hw, List.map_map]
    rfl
  rw [e3, ← h2.2] at h3
  refine ⟨h2.1.symm, ?_, ?_⟩
  · unfold challenges
    simp only [e4, e5, e6, askTau, ask, Bool.false_eq_true, if_false]
    rw [← h4, h3]
  · unfold challenges
    simp only [e4, e5, e6, askTau, ask, Bool.false_eq_true, if_false]
    rw [← h6, h5, h3]

/-! ## The proof in terms of the polynomials -/

/-- satisfied TurboPlonk circuits on one domain with their keys -/
structure TurboFam (S : ℕ) (root : ZMod p) (rnd : List (ZMod p)) (x : ZMod p) (g : G) (h : G2) (m : ℕ)
    (d : Domain (ZMod p)) {len : ℕ} (Y : Fin len → Case p G G2) : Prop where
  honest : ∀ i, Honest S root rnd x g h m (Y i).circ (Y i).final (Y i).key (Y i).inputs
  turbo : ∀ i, (Y i).circ.ultra = none
  dom : ∀ i, (Y i).final.dom = d

theorem forall₂_ofFn {A B : Type} {R : A → B → Prop} : ∀ {n : ℕ} {a : Fin n → A} {l : List B},
    List.Forall₂ R (List.ofFn a) l → ∃ b : Fin n → B, l = List.ofFn b ∧ ∀ i, R (a i) (b i)
  | 0, _, _, h => by
    rw [List.ofFn_zero, List.forall₂_nil_left_iff] at h
    exact ⟨Fin.elim0, by rw [h, List.ofFn_zero], fun i => i.elim0⟩
  | n + 1, a, l, h => by
    rw [List.ofFn_succ] at h
    obtain ⟨b0, l', h0, h', rfl⟩ := List.forall₂_cons_left_iff.1 h
    obtain ⟨b, rfl, hb⟩ := forall₂_ofFn h'
    refine ⟨Fin.cons b0 b, by simp [List.ofFn_succ], fun i => ?_⟩
    refine Fin.cases ?_ (fun j => ?_) i
    · exact h0
    · exact hb j

theorem forall₂_of_ofFn {A B : Type} {R : A → B → Prop} : ∀ {n : ℕ} {a : Fin n → A} {b : Fin n → B},
    (∀ i, R (a i) (b i)) → List.Forall₂ R (List.ofFn a) (List.ofFn b)
  | 0, _, _, _ => by simp
  | n + 1, a, b, h => by
    rw [List.ofFn_succ, List.ofFn_succ]
    exact List.Forall₂.cons (h 0) (forall₂_of_ofFn fun i => h i.succ)

/-- the run of an instance before the first round -/
def startRun (y : Case p G G2) (mask : Masks (ZMod p)) : Run (ZMod p) G G2 :=
  { cs := y.final.arith, pk := y.key, mask := mask, zComm := 0 }

theorem startRuns_ofFn {len : ℕ} (Y : Fin len → Case p G G2) (masks : ℕ → Masks (ZMod p)) :
    startRuns (List.ofFn Y) masks = List.ofFn (fun i => startRun (Y i) (masks i)) := by
  unfold startRuns
  refine List.ext_getElem (by simp) fun i h1 h2 => ?_
  simp [startRun]

variable {d : Domain (ZMod p)} {len : ℕ}

/-- the prover with the ideal split of the quotient -/
def idealProve (gen : ZMod p) (newDom : ℕ → Option (Domain (ZMod p))) (oracle : List (Call (ZMod p) G G2) → ZMod p)
    (extra : Option (List ℕ)) (n : ℕ) (ck : ProverParam G) (Y : Fin len → Case p G G2) (r : TurboRand p len) :
    Except PErr (BProof (ZMod p) G) :=
  proveRunsWith (idealSplit n 5 r.quot) gen newDom oracle extra n 5 ck (startRuns (List.ofFn Y) r.masks)

theorem TurboFam.numWires {Y : Fin len → Case p G G2} (H : TurboFam S root rnd x g h m d Y) (i : Fin len) :
    (Y i).final.circ.ultra = none ∧ numWireTypes (Y i).final.circ = 5 := by
  have e : (Y i).final.circ.ultra = none := by
    rw [final_ultra (H.honest i).built (H.honest i).final]
    exact H.turbo i
  exact ⟨e, by unfold numWireTypes; rw [e]⟩

theorem startRuns_elem {Y : Fin len → Case p G G2} {masks : ℕ → Masks (ZMod p)} :
    ∀ r ∈ startRuns (List.ofFn Y) masks, ∃ i : Fin len, r = startRun (Y i) (masks i) := by
  intro r hr
  rw [startRuns_ofFn] at hr
  obtain ⟨i, rfl⟩ := List.mem_ofFn.1 hr
  exact ⟨i, rfl⟩

theorem TurboFam.size {Y : Fin len → Case p G G2} (H : TurboFam S root rnd x g h m d Y) (i : Fin len) :
    newDomain S root d.size = some d ∧ d.size ≠ 1 := by
  obtain ⟨hdom, -⟩ := finalize_ok (H.honest i).final
  have h1 := newDomain_again hdom
  have h2 := final_size (H.honest i).final
  rw [H.dom i] at h1 h2
  exact ⟨h1, by omega⟩

theorem TurboFam.run (hroot : IsPrimitiveRoot root (2 ^ S)) {Y : Fin len → Case p G G2}
    (H : TurboFam S root rnd x g h m d Y) (masks : ℕ → Masks (ZMod p)) : ∀ r₀ ∈ startRuns (List.ofFn Y) masks,
      ∀ (τ : Option (ZMod p)) (β γ : ZMod p) (r : Run (ZMod p) G G2), (false = true → τ.isSome) → Ran d τ β γ r₀ r →
      ∃ I, Tracks (kzg x g) d (openKey x g h) r I ∧ I.nw = 5 ∧
        ∀ e ∈ I.constraints d (τ.getD 0) β γ, ∀ j < d.size, e.eval (d.gen ^ j) = 0 := by
  intro r₀ hr₀ τ β γ r _ hran
  obtain ⟨i, rfl⟩ := startRuns_elem r₀ hr₀
  rw [← H.dom i] at hran ⊢
  obtain ⟨I, hI1, hI2, hI3⟩ := (H.honest i).run hroot hran
  exact ⟨I, hI1, hI2.trans (H.numWires i).2, hI3⟩

theorem TurboFam.lookup {Y : Fin len → Case p G G2} (H : TurboFam S root rnd x g h m d Y)
    (masks : ℕ → Masks (ZMod p)) : ∀ r ∈ startRuns (List.ofFn Y) masks, r.cs.lookup = false := by
  intro r hr
  obtain ⟨i, rfl⟩ := startRuns_elem r hr
  show (Y i).final.circ.ultra.isSome = false
  rw [(H.numWires i).1]
  rfl

theorem TurboFam.vkLookup (hroot : IsPrimitiveRoot root (2 ^ S)) {Y : Fin len → Case p G G2}
    (H : TurboFam S root rnd x g h m d Y) (i : Fin len) : (Y i).key.vk.lookup = none := by
  obtain ⟨I0, hI0, hin⟩ := C73_key (H.honest i).built hroot (H.honest i).final (Y i).inputs (H.honest i).inputs_length
  obtain ⟨pk', hpk, hvk, -, -, -, hlk⟩ := C73_preprocess (H.honest i).built hroot (H.honest i).final
    (fun k hk => ((H.honest i).supported k hk).1.le) hI0 x g h (H.honest i).size
  have e : (Y i).key = pk' := by
    have := (H.honest i).pre
    rw [this] at hpk
    exact Except.ok.inj hpk
  have hl := hI0.lookup
  rw [(H.numWires i).1] at hl
  rw [e, hvk]
  cases h : I0.lookup with
  | none => simp [Inst.key, h]
  | some l => rw [h] at hl; cases hl

/-- the polynomials of a proof -/
structure Shown (x : ZMod p) (g : G) (d quot : Domain (ZMod p)) (gen : ZMod p) (Y : Fin len → Case p G G2)
    (r : TurboRand p len) (ch : Chal (ZMod p)) (π : BProof (ZMod p) G) (I : Fin len → Inst (ZMod p)) (τ : ZMod p)
    (q : List (ZMod p)) (ts : List (List (ZMod p))) (W W' : (ZMod p)[X]) : Prop where
  proof : π = proof (kzg x g) ((List.ofFn I).map (fun I => (I, truth d ch.ζ I))) (ts.map toPoly) W W'
  inst : ∀ i, TurboInst d ch.β ch.γ (Y i) (r.masks i) (I i)
  opening : (X - C ch.ζ) * W = residue d ch τ ((List.ofFn I).map (fun I => (I, truth d ch.ζ I))) (ts.map toPoly) +
    (parts ch.v (allItems ((List.ofFn I).map (fun I => (I, truth d ch.ζ I)))) ch.v 1).1
  shifted : (X - C (ch.ζ * d.gen)) * W' =
    (parts ch.v (allItems ((List.ofFn I).map (fun I => (I, truth d ch.ζ I)))) ch.v 1).2
  quotient : (X ^ d.size - 1) * toPoly q = batch d τ ch.α ch.β ch.γ (List.ofFn I)
    (alphaBases ch.α (firstLookup (List.ofFn I)) len)
  list : quotList gen d quot ch.α ch.β ch.γ (List.ofFn Y) r.masks = q
  split : idealSplit d.size 5 r.quot q = .ok ts
  join : joinQuot d (ts.map toPoly) = toPoly q

theorem idealProve_ok (hroot : IsPrimitiveRoot root (2 ^ S)) {Y : Fin len → Case p G G2}
    (H : TurboFam S root rnd x g h m d Y) {ck : ProverParam G} (hck : Commits (kzg x g) (d.size + 3) ck)
    {gen : ZMod p} (hgen : gen ≠ 0) {quot : Domain (ZMod p)}
    (hq : newDomain S root (d.size * domainSizeRatio d.size 5) = some quot)
    {oracle : List (Call (ZMod p) G G2) → ZMod p} {extra : Option (List ℕ)} (i₀ : Fin len) {r : TurboRand p len}
    {π : BProof (ZMod p) G} (hπ : idealProve gen (newDomain S root) oracle extra d.size ck Y r = .ok π) :
    ∃ I τ q ts W W', Shown x g d quot gen Y r
      (challenges oracle extra (List.ofFn (fun i => (Y i).key.vk)) (List.ofFn (fun i => (Y i).inputs)) π) π I τ q ts W W'
    := by
  obtain ⟨hd, hn1⟩ := H.size i₀
  obtain ⟨Is, ch, τ, ts, W, W', h1, h2, h3, h4, h5, h6, h7, h8, h9, Rs, quot', q, ts₀, h10, h11, h12, h13, h14, h15, h16⟩ :=
    proveRunsWith_ok (com := kzg x g) (ok := openKey x g h) hck hgen hd
      (fun quot hq => quotient_domain hroot hd hn1 (by norm_num) hq) (idealSplit_splits d (le_refl 5) r.quot)
      (H.lookup r.masks) (H.run hroot r.masks) hπ
  rw [hq] at h11
  obtain rfl := Option.some.inj h11
  rw [startRuns_ofFn] at h9
  obtain ⟨I, rfl, hI⟩ := forall₂_ofFn h9
  have hinst : ∀ i, TurboInst d ch.β ch.γ (Y i) (r.masks i) (I i) := by
    intro i
    obtain ⟨r', a, b⟩ := hI i
    rw [← H.dom i] at a b ⊢
    exact turboInst (H.honest i) (H.turbo i) a b
  have hvks : List.ofFn (fun i => (Y i).key.vk) = (List.ofFn I).map (fun I => I.key (kzg x g) d (openKey x g h)) := by
    rw [← h2, startRuns_ofFn, List.map_ofFn]
    rfl
  have hins : List.ofFn (fun i => (Y i).inputs) = (List.ofFn I).map (·.inputs) := by
    rw [List.map_ofFn]
    congr 1
    funext i
    exact (hinst i).inputs.symm
  have hτ : ch.τ = none := by
    have : ch.τ = (challenges oracle extra ((List.ofFn I).map (fun I => I.key (kzg x g) d (openKey x g h)))
      ((List.ofFn I).map (·.inputs)) π).τ := by rw [h4]
    rw [this, ← hvks]
    unfold challenges
    have e5 : (List.ofFn (fun i => (Y i).key.vk)).any (·.lookup.isSome) = false := by
      rw [List.any_eq_false]
      intro v hv
      obtain ⟨i, rfl⟩ := List.mem_ofFn.1 hv
      simp [H.vkLookup hroot i]
    simp only [e5, askTau, Bool.false_eq_true, if_false]
  have h17 := idealSplit_splits d (le_refl 5) r.quot q ts₀ h15 h13
  rw [hτ] at h10 h12
  subst h16
  refine ⟨I, τ, q, ts₀, W, W', ?_⟩
  rw [hvks, hins, h4]
  refine ⟨h1, hinst, h6, h7, ?_, quotList_eq h10 h12, h15, ?_⟩
  · rw [h14, List.length_ofFn]
  · exact (h17 (quotient_degree (good_of_newDomain hroot hd).1 h8 h14)).2.1

/-! ## The challenges depend on the parts of the proof before them -/

section

variable {oracle : List (Call (ZMod p) G G2) → ZMod p} {extra : Option (List ℕ)} {vks : List (VKey (ZMod p) G G2)}
  {pis : List (List (ZMod p))} {π π' : BProof (ZMod p) G}

theorem chal_first (hl : π.lookups = π'.lookups) (hw : π.wires = π'.wires) :
    (challenges oracle extra vks pis π).τ = (challenges oracle extra vks pis π').τ ∧
    (challenges oracle extra vks pis π).β = (challenges oracle extra vks pis π').β ∧
      (challenges oracle extra vks pis π).γ = (challenges oracle extra vks pis π').γ := by
  unfold challenges
  simp only [hl, hw, and_self]

theorem chal_alpha (hl : π.lookups = π'.lookups) (hw : π.wires = π'.wires) (hz : π.prodPerm = π'.prodPerm) :
    (challenges oracle extra vks pis π).α = (challenges oracle extra vks pis π').α := by
  unfold challenges
  simp only [hl, hw, hz]

theorem chal_zeta (hl : π.lookups = π'.lookups) (hw : π.wires = π'.wires) (hz : π.prodPerm = π'.prodPerm)
    (hq : π.quot = π'.quot) : (challenges oracle extra vks pis π).ζ = (challenges oracle extra vks pis π').ζ := by
  unfold challenges
  simp only [hl, hw, hz, hq]

theorem chal_v (hl : π.lookups = π'.lookups) (hw : π.wires = π'.wires) (hz : π.prodPerm = π'.prodPerm)
    (hq : π.quot = π'.quot) (he : π.evals = π'.evals) :
    (challenges oracle extra vks pis π).v = (challenges oracle extra vks pis π').v := by
  unfold challenges
  simp only [hl, hw, hz, hq, he]

end

/-! ## Two runs with the same profile -/

theorem masks_wire (r : TurboRand p len) (i : Fin len) {j : ℕ} (hj : j < 5) :
    (r.masks i).wire j = (r.1 i).1 ⟨j, hj⟩ := by
  unfold TurboRand.masks
  simp only
  rw [dif_pos ⟨i.2, hj⟩]

theorem masks_z (r : TurboRand p len) (i : Fin len) : (r.masks i).z = (r.1 i).2 := by
  unfold TurboRand.masks
  simp only
  rw [dif_pos i.2]

/-- what equal profiles say -/
structure SameProfile (gen x : ZMod p) (d quot : Domain (ZMod p)) (α β γ ζ : ZMod p) (Y Y' : Fin len → Case p G G2)
    (r r' : TurboRand p len) : Prop where
  wx : ∀ i, ∀ j < 5, (column (Y i).final j + wireMask d.size ((r.masks i).wire j)).eval x =
    (column (Y' i).final j + wireMask d.size ((r'.masks i).wire j)).eval x
  wζ : ∀ i, ∀ j < 5, (column (Y i).final j + wireMask d.size ((r.masks i).wire j)).eval ζ =
    (column (Y' i).final j + wireMask d.size ((r'.masks i).wire j)).eval ζ
  zx : ∀ i, (unmaskedZ (Y i).final β γ + prodMask d.size (r.masks i).z).eval x =
    (unmaskedZ (Y' i).final β γ + prodMask d.size (r'.masks i).z).eval x
  zgx : ∀ i, (unmaskedZ (Y i).final β γ + prodMask d.size (r.masks i).z).eval (d.gen * x) =
    (unmaskedZ (Y' i).final β γ + prodMask d.size (r'.masks i).z).eval (d.gen * x)
  zζ : ∀ i, (unmaskedZ (Y i).final β γ + prodMask d.size (r.masks i).z).eval (ζ * d.gen) =
    (unmaskedZ (Y' i).final β γ + prodMask d.size (r'.masks i).z).eval (ζ * d.gen)
  quot : ∀ k < 4, (toPoly ((chunks d.size 5 (quotList gen d quot α β γ (List.ofFn Y) r.masks)).getD k [])).eval x +
      r.quot k * x ^ (d.size + 2) - (if k = 0 then 0 else r.quot (k - 1)) =
    (toPoly ((chunks d.size 5 (quotList gen d quot α β γ (List.ofFn Y') r'.masks)).getD k [])).eval x +
      r'.quot k * x ^ (d.size + 2) - (if k = 0 then 0 else r'.quot (k - 1))

theorem sameProfile {gen : ZMod p} {quot : Domain (ZMod p)} {α β γ ζ : ZMod p} {Y Y' : Fin len → Case p G G2}
    {r r' : TurboRand p len} (h : profile gen x d quot α β γ ζ Y r = profile gen x d quot α β γ ζ Y' r') :
    SameProfile gen x d quot α β γ ζ Y Y' r r' := by
  have h1 : ∀ i, _ := fun i => congrFun (congrArg Prod.fst h) i
  simp only [profile, Prod.mk.injEq] at h1
  refine ⟨fun i j hj => ?_, fun i j hj => ?_, fun i => ?_, fun i => ?_, fun i => ?_, fun k hk => ?_⟩
  · rw [masks_wire _ _ hj, masks_wire _ _ hj]
    exact congrArg Prod.fst (congrFun (h1 i).1 ⟨j, hj⟩)
  · rw [masks_wire _ _ hj, masks_wire _ _ hj]
    exact congrArg Prod.snd (congrFun (h1 i).1 ⟨j, hj⟩)
  · rw [masks_z, masks_z]
    exact (h1 i).2.1
  · rw [masks_z, masks_z]
    exact (h1 i).2.2.1
  · rw [masks_z, masks_z]
    exact (h1 i).2.2.2
  · exact congrFun (congrArg Prod.snd h) ⟨k, hk⟩

theorem ofFn_congr {A : Type} {n : ℕ} {a b : Fin n → A} (h : ∀ i, a i = b i) : List.ofFn a = List.ofFn b := by
  rw [funext h]

theorem combine_values (s : (ZMod p)[X]) (ts : List (List (ZMod p))) : (combine s (ts.map toPoly)).eval x =
    combine (s.eval x) (ts.map (fun t => (toPoly t).eval x)) := by
  induction ts with
  | nil => simp [combine]
  | cons t ts ih => simp [combine, ih]

/-- proofs with the same profile for the challenges of the first are the same -/
theorem shown_same {Y Y' : Fin len → Case p G G2} (hd : Good d) (hkey : ∀ i, (Y i).key = (Y' i).key)
    (hin : ∀ i, (Y i).inputs = (Y' i).inputs) {quot : Domain (ZMod p)} {gen : ZMod p} {r r' : TurboRand p len}
    {oracle : List (Call (ZMod p) G G2) → ZMod p} {extra : Option (List ℕ)} {vks : List (VKey (ZMod p) G G2)}
    {pis : List (List (ZMod p))} {π π' : BProof (ZMod p) G} {I I' : Fin len → Inst (ZMod p)} {τ τ' : ZMod p}
    {q q' : List (ZMod p)} {ts ts' : List (List (ZMod p))} {W W' V V' : (ZMod p)[X]}
    (h1 : Shown x g d quot gen Y r (challenges oracle extra vks pis π) π I τ q ts W W')
    (h2 : Shown x g d quot gen Y' r' (challenges oracle extra vks pis π') π' I' τ' q' ts' V V')
    (hx0 : x ≠ 0) (hx : x ^ d.size ≠ 1) (hxζ : x ≠ (challenges oracle extra vks pis π).ζ)
    (hxζ' : x ≠ (challenges oracle extra vks pis π).ζ * d.gen)
    (hp : SameProfile gen x d quot (challenges oracle extra vks pis π).α (challenges oracle extra vks pis π).β
      (challenges oracle extra vks pis π).γ (challenges oracle extra vks pis π).ζ Y Y' r r') : π' = π := by
  have em : ∀ P Q : (ZMod p)[X], P.eval x = Q.eval x → kzg x g P = kzg x g Q := by
    intro P Q h
    show P.eval x • g = Q.eval x • g
    rw [h]
  have hs : ∀ i, Same (I i) (I' i) := fun i => (h1.inst i).same hd (h2.inst i) (hkey i) (hin i)
  have hn1 : ∀ i, (I i).nw = 5 := fun i => Inst.nw_turbo (hs i).left
  have hn2 : ∀ i, (I' i).nw = 5 := fun i => Inst.nw_turbo (hs i).right
  have hwx : ∀ i, WiresAt x (I i) (I' i) := by
    intro i j hj
    rw [(h1.inst i).w j hj, (h2.inst i).w j hj]
    exact hp.wx i j hj
  have hwires : π.wires = π'.wires := by
    rw [h1.proof, h2.proof]
    simp only [proof, List.map_map, List.map_ofFn, Function.comp_def]
    refine ofFn_congr fun i => ?_
    rw [hn1, hn2]
    refine List.map_congr_left fun j hj => em _ _ (hwx i j (List.mem_range.1 hj))
  have hlook : π.lookups = π'.lookups := by
    rw [h1.proof, h2.proof]
    simp only [proof, List.map_map, List.map_ofFn, Function.comp_def]
    refine ofFn_congr fun i => ?_
    rw [(hs i).left, (hs i).right]
    rfl
  obtain ⟨eτ, eβ, eγ⟩ := chal_first (oracle := oracle) (extra := extra) (vks := vks) (pis := pis) hlook hwires
  have hzx : ∀ i, ProdAt x (I i) (I' i) := by
    intro i
    unfold ProdAt
    rw [(h1.inst i).z, (h2.inst i).z, ← eβ, ← eγ]
    exact hp.zx i
  have hzgx : ∀ i, ProdAt (d.gen * x) (I i) (I' i) := by
    intro i
    unfold ProdAt
    rw [(h1.inst i).z, (h2.inst i).z, ← eβ, ← eγ]
    exact hp.zgx i
  have hprod : π.prodPerm = π'.prodPerm := by
    rw [h1.proof, h2.proof]
    simp only [proof, List.map_map, List.map_ofFn, Function.comp_def]
    exact ofFn_congr fun i => em _ _ (hzx i)
  have eα := chal_alpha (oracle := oracle) (extra := extra) (vks := vks) (pis := pis) hlook hwires hprod
  have hT : (toPoly q).eval x = (toPoly q').eval x := by
    have a := congrArg (eval x) h1.quotient
    have b := congrArg (eval x) h2.quotient
    obtain ⟨f1, f2⟩ := firstLookup_agree (forall₂_of_ofFn hs)
    rw [f1] at a
    rw [f2, ← eα, ← eβ, ← eγ] at b
    rw [batch_agree (forall₂_of_ofFn fun i => ⟨hs i, hwx i, hzx i, hzgx i⟩) τ τ', ← b, eval_mul, eval_mul] at a
    refine mul_left_cancel₀ ?_ a
    simpa [sub_eq_zero] using hx
  obtain ⟨l1, s1⟩ := idealSplit_eval h1.split x
  obtain ⟨l2, s2⟩ := idealSplit_eval h2.split x
  have hts : ts.map (fun t => (toPoly t).eval x) = ts'.map (fun t => (toPoly t).eval x) := by
    refine parts_last (s := x ^ (d.size + 2)) (pow_ne_zero _ hx0) (by simp [l1, l2]) (fun k hk => ?_) ?_
    · rw [List.length_map, l1] at hk
      have e : ∀ ts : List (List (ZMod p)), ts.length = 5 → (ts.map (fun t => (toPoly t).eval x)).getD k 0 =
          (toPoly (ts.getD k [])).eval x := by
        intro ts hl
        rw [List.getD_eq_getElem?_getD, List.getD_eq_getElem?_getD, List.getElem?_map,
          List.getElem?_eq_getElem (by omega)]
        rfl
      rw [e ts l1, e ts' l2, s1 k hk, s2 k hk, ← h1.list, ← h2.list, ← eα, ← eβ, ← eγ]
      exact hp.quot k (by omega)
    · have a := congrArg (eval x) h1.join
      have b := congrArg (eval x) h2.join
      rw [hT, ← b] at a
      unfold joinQuot at a
      rw [combine_values, combine_values, eval_pow, eval_X] at a
      exact a
  have hquot : π.quot = π'.quot := by
    rw [h1.proof, h2.proof]
    simp only [proof, List.map_map]
    have e : ∀ ts : List (List (ZMod p)), ts.map (⇑(kzg x g) ∘ toPoly) =
        (ts.map (fun t => (toPoly t).eval x)).map (· • g) := by
      intro ts
      rw [List.map_map]
      rfl
    rw [e, e, hts]
  have eζ := chal_zeta (oracle := oracle) (extra := extra) (vks := vks) (pis := pis) hlook hwires hprod hquot
  have hag : ∀ i, Agree d x (challenges oracle extra vks pis π).ζ (I i) (I' i) := by
    intro i
    refine ⟨hs i, hwx i, ?_, hzx i, ?_⟩
    · intro j hj
      rw [(h1.inst i).w j hj, (h2.inst i).w j hj]
      exact hp.wζ i j hj
    · unfold ProdAt
      rw [(h1.inst i).z, (h2.inst i).z, ← eβ, ← eγ]
      exact hp.zζ i
  have hevals : π.evals = π'.evals := by
    rw [h1.proof, h2.proof]
    simp only [proof, List.map_map, List.map_ofFn, Function.comp_def]
    refine ofFn_congr fun i => ?_
    rw [← eζ]
    unfold Inst.evals
    rw [hn1, hn2]
    congr 1
    · exact List.map_congr_left fun j hj => (hag i).wζ j (List.mem_range.1 hj)
    · refine List.map_congr_left fun j hj => ?_
      have := List.mem_range.1 hj
      simp only [truth, (hs i).σ j (by omega)]
    · exact (hag i).zζ
  have ev := chal_v (oracle := oracle) (extra := extra) (vks := vks) (pis := pis) hlook hwires hprod hquot hevals
  have h1o := h1.opening
  have h2o := h2.opening
  have h1s := h1.shifted
  have h2s := h2.shifted
  have hres : ∀ l t, residue d (challenges oracle extra vks pis π') τ' l t =
      residue d (challenges oracle extra vks pis π) τ' l t := by
    intro l t
    generalize challenges oracle extra vks pis π = c at *
    generalize challenges oracle extra vks pis π' = c' at *
    obtain ⟨_, _, _, _, _, _, _⟩ := c
    obtain ⟨_, _, _, _, _, _, _⟩ := c'
    simp only at eτ eα eβ eγ eζ ev
    subst eτ eα eβ eγ eζ ev
    rfl
  rw [hres] at h2o
  rw [← eζ, ← ev] at h2o h2s
  have hti := parts_agree (allItems_agree (forall₂_of_ofFn hag)) (challenges oracle extra vks pis π).v
    (challenges oracle extra vks pis π).v 1
  have hpt : List.Forall₂ (fun t t' : (ZMod p)[X] => t.eval x = t'.eval x) (ts.map toPoly) (ts'.map toPoly) := by
    rw [List.forall₂_map_left_iff, List.forall₂_map_right_iff]
    rw [← List.forall₂_eq_eq_eq, List.forall₂_map_left_iff, List.forall₂_map_right_iff] at hts
    exact hts
  have hW : W.eval x = V.eval x := by
    have a := congrArg (eval x) h1o
    have b := congrArg (eval x) h2o
    rw [eval_add, residue_agree τ τ' (forall₂_of_ofFn hag) hpt, hti.1, ← eval_add, ← b, eval_mul, eval_mul] at a
    refine mul_left_cancel₀ ?_ a
    simpa [sub_eq_zero] using hxζ
  have hW' : W'.eval x = V'.eval x := by
    have a := congrArg (eval x) h1s
    have b := congrArg (eval x) h2s
    rw [hti.2, ← b, eval_mul, eval_mul] at a
    refine mul_left_cancel₀ ?_ a
    simpa [sub_eq_zero] using hxζ'
  have hop : π.opening = π'.opening := by
    rw [h1.proof, h2.proof]
    exact em _ _ hW
  have hsh : π.shifted = π'.shifted := by
    rw [h1.proof, h2.proof]
    exact em _ _ hW'
  obtain ⟨_, _, _, _, _, _, _⟩ := π
  obtain ⟨_, _, _, _, _, _, _⟩ := π'
  simp only at hwires hlook hprod hquot hevals hop hsh
  subst hwires hlook hprod hquot hevals hop hsh
  rfl

/-- a run with the profile of a proof makes the same proof -/
theorem exchange (hroot : IsPrimitiveRoot root (2 ^ S)) {Y Y' : Fin len → Case p G G2}
    (H : TurboFam S root rnd x g h m d Y) (H' : TurboFam S root rnd x g h m d Y')
    (hkey : ∀ i, (Y i).key = (Y' i).key) (hin : ∀ i, (Y i).inputs = (Y' i).inputs)
    {ck : ProverParam G} (hck : Commits (kzg x g) (d.size + 3) ck)
    {gen : ZMod p} (hgen : gen ≠ 0) {quot : Domain (ZMod p)}
    (hq : newDomain S root (d.size * domainSizeRatio d.size 5) = some quot)
    (hz : ∀ i < quot.size / d.size, (gen * quot.gen ^ i) ^ d.size ≠ 1)
    {oracle : List (Call (ZMod p) G G2) → ZMod p} {extra : Option (List ℕ)} (i₀ : Fin len) {r r' : TurboRand p len}
    {π : BProof (ZMod p) G} (hπ : idealProve gen (newDomain S root) oracle extra d.size ck Y r = .ok π)
    {ch : Chal (ZMod p)}
    (hch : challenges oracle extra (List.ofFn (fun i => (Y i).key.vk)) (List.ofFn (fun i => (Y i).inputs)) π = ch)
    (hx0 : x ≠ 0) (hx : x ^ d.size ≠ 1) (hxζ : x ≠ ch.ζ) (hxζ' : x ≠ ch.ζ * d.gen)
    (hdef : ∀ i, PermDefined (Y' i).final ch.β ch.γ)
    (hp : profile gen x d quot ch.α ch.β ch.γ ch.ζ Y r = profile gen x d quot ch.α ch.β ch.γ ch.ζ Y' r') :
    idealProve gen (newDomain S root) oracle extra d.size ck Y' r' = .ok π := by
  subst hch
  obtain ⟨hd, hn1⟩ := H.size i₀
  obtain ⟨I, τ, q, ts, W, W', hsh⟩ := idealProve_ok hroot H hck hgen hq i₀ hπ
  have hp := sameProfile hp
  obtain ⟨hfine, hsize⟩ := quotient_domain hroot hd hn1 (by norm_num) hq
  obtain ⟨r1, r2, T4, τ', β, γ, hst, hτ, hout⟩ := proveRunsWith_outcome (com := kzg x g) (d := d) (ok := openKey x g h)
    hck hgen hd hq hfine hsize hz (oracle := oracle) (extra := extra) (idealSplit_splits d (le_refl 5) r'.quot)
    (rs := startRuns (List.ofFn Y') r'.masks) (by
      rw [startRuns_ofFn]
      intro h0
      have := congrArg List.length h0
      rw [List.length_ofFn] at this
      simp only [List.length_nil] at this
      exact absurd i₀.2 (by omega)) (b := false)
    (H'.lookup r'.masks)
    (fun r hr => by
      obtain ⟨i, rfl⟩ := startRuns_elem r hr
      exact ⟨_, (H'.honest i).publicInput⟩)
    (fun r hr => by
      obtain ⟨i, rfl⟩ := startRuns_elem r hr
      obtain ⟨s1, e1, e2⟩ := (H'.honest i).rounds hroot (r'.masks i)
      rw [H'.dom i] at e1 e2
      refine ⟨s1, e1, fun τ hτ => ?_⟩
      obtain ⟨s2, e3, e4⟩ := e2 τ (by rw [(H'.numWires i).1]; exact hτ)
      refine ⟨s2, e3, fun β γ => ?_⟩
      rcases e4 β γ with ⟨s3, e5, ⟨-, e6⟩ | ⟨-, e6⟩⟩ | ⟨-, e5⟩
      · exact Or.inl ⟨s3, e5, Or.inl e6⟩
      · exact Or.inl ⟨s3, e5, Or.inr e6⟩
      · exact Or.inr e5)
    (H'.run hroot r'.masks)
  have h1 := hst.h1
  rw [startRuns_ofFn] at h1
  obtain ⟨s, rfl, hs⟩ := forall₂_ofFn (mapM_forall₂ h1)
  have hcomms : ∀ i, (s i).lk = none ∧ (s i).cs = (Y' i).final.arith ∧ (s i).wireComms = (List.range 5).map (fun j =>
      (column (Y' i).final j + wireMask d.size ((r'.masks i).wire j)).eval x • g) := by
    intro i
    have := hs i
    rw [← H'.dom i] at this ⊢
    exact round1_comms hroot (H'.honest i) (H'.turbo i) this
  have hvks : (startRuns (List.ofFn Y') r'.masks).map (·.pk.vk) = List.ofFn (fun i => (Y i).key.vk) := by
    rw [startRuns_ofFn, List.map_ofFn]
    exact ofFn_congr fun i => by rw [hkey i]; rfl
  have hpis : (startRuns (List.ofFn Y') r'.masks).mapM (fun r => liftC r.cs.publicInput) =
      .ok (List.ofFn (fun i => (Y i).inputs)) := by
    rw [startRuns_ofFn]
    have := forall₂_mapM (f := fun r : Run (ZMod p) G G2 => liftC r.cs.publicInput)
      (forall₂_of_ofFn (R := fun (r : Run (ZMod p) G G2) (l : List (ZMod p)) => liftC r.cs.publicInput = .ok l)
        (a := fun i => startRun (Y' i) (r'.masks i)) (b := fun i => (Y i).inputs) fun i => by
          rw [hin i]
          show liftC (publicInput (Y' i).final.circ) = _
          rw [(H'.honest i).publicInput]
          rfl) (g := id) (fun _ _ h => h)
    rw [this, List.map_id]
  obtain ⟨rfl, hβ, hγ⟩ := started_turbo hst (fun r hr => by
      obtain ⟨i, rfl⟩ := List.mem_ofFn.1 hr
      refine ⟨(hcomms i).1, ?_⟩
      rw [(hcomms i).2.1]
      show (Y' i).final.circ.ultra.isSome = false
      rw [(H'.numWires i).1]
      rfl) hpis (π := π) (by
        rw [hsh.proof]
        simp only [proof, List.map_map, List.map_ofFn, Function.comp_def]
        refine ofFn_congr fun i => ?_
        rw [(hcomms i).2.2, Inst.nw_turbo (hsh.inst i).lookup]
        refine List.map_congr_left fun j hj => ?_
        have hj := List.mem_range.1 hj
        rw [(hsh.inst i).w j hj, ← hp.wx i j hj]
        rfl) (by
        intro l hl
        rw [hsh.proof] at hl
        simp only [proof, List.map_map, List.map_ofFn, Function.comp_def] at hl
        obtain ⟨i, rfl⟩ := List.mem_ofFn.1 hl
        rw [(hsh.inst i).lookup]
        rfl) (by
        intro r hr
        obtain ⟨i, rfl⟩ := startRuns_elem r hr
        exact H'.vkLookup hroot i)
  rw [hvks] at hβ hγ
  rcases hout with ⟨-, r₀, hr₀, hno⟩ | ⟨r3, Rs, α, Is, q', -, -, -, -, ⟨e, he, -⟩ | ⟨-, π', hπ'⟩⟩
  · obtain ⟨i, rfl⟩ := startRuns_elem r₀ hr₀
    refine absurd ?_ hno
    have := ((H'.honest i).ran_iff hroot (r'.masks i) (τ := none) (by rw [(H'.numWires i).1]; exact hτ) β γ).2
      ⟨by rw [hβ, hγ]; exact hdef i, fun t ht => by cases ht⟩
    rw [H'.dom i] at this
    exact this
  · cases he
  obtain ⟨I', τ', q', ts', V, V', hsh'⟩ := idealProve_ok hroot H' hck hgen hq i₀ hπ'
  have hvks' : List.ofFn (fun i => (Y' i).key.vk) = List.ofFn (fun i => (Y i).key.vk) := ofFn_congr fun i => by rw [hkey i]
  have hins' : List.ofFn (fun i => (Y' i).inputs) = List.ofFn (fun i => (Y i).inputs) := ofFn_congr fun i => by rw [hin i]
  rw [hvks', hins'] at hsh'
  have := shown_same (good_of_newDomain hroot hd).1 hkey hin hsh hsh' hx0 hx hxζ hxζ' hp
  rw [← this]
  exact hπ'

end Verif.Plonk
