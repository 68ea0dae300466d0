import Verif.Circuit.MsmLoop
import Verif.Circuit.Curves
import Verif.Util.Projective
import Verif.Props.Ecc
import Verif.Props.TableSpec

/-!
# Multi-scalar multiplication (C34)

`relation/src/gadgets/ecc/msm.rs`. Scalars are variables of the native field, `bits` is the length of the scalars in bits
(for `msm` the length of the group order). In circuits with lookups the scalars are cut into `M` windows of `c` bits, and
`c M` may be larger than `bits`, and larger than the length of the native field.
-/

set_option linter.unusedSectionVars false

namespace Verif.Props.Msm

open Verif.Circuit Verif.Props.Circuit Verif.Props.Ecc Verif.Curves

variable {p : ℕ} [Fact p.Prime]

/-- `S = Σ nᵢ Pᵢ` where `Pᵢ` are the values of the point variables -/
def IsMsm (E : EdGroup (ZMod p)) (w : ℕ → ZMod p) (bases : List (ℕ × ℕ)) (ns : List ℕ) (S : ZMod p × ZMod p) : Prop :=
  ∃ Ps : List E.Pt, bases.map (pt w) = Ps.map (fun P : E.Pt => P.1) ∧
    S = ((List.zipWith (fun n (P : E.Pt) => n • P) ns Ps).sum).1

/-- the variables exist, as many scalars as bases, at least one; the circuit supports lookups -/
def LDom (bases : List (ℕ × ℕ)) (scalars : List ℕ) (c : Circ p) : Prop :=
  Dom scalars bases c ∧ c.ultra ≠ none

/-- the number of bits the windows cover -/
def windowBits (bits : ℕ) : ℕ := msmWindow bits * windowCount (msmWindow bits) bits

/-! ## Auxiliary facts -/

theorem exists_pts {E : EdGroup (ZMod p)} {w : ℕ → ZMod p} (bases : List (ℕ × ℕ))
    (h : ∀ b ∈ bases, E.mem (pt w b)) : ∃ Ps : List E.Pt, bases.map (pt w) = Ps.map (fun P : E.Pt => P.1) := by
  induction bases with
  | nil => exact ⟨[], rfl⟩
  | cons b bs ih =>
    obtain ⟨Ps, hPs⟩ := ih fun x hx => h x (by simp [hx])
    obtain ⟨P, hP⟩ : ∃ P : E.Pt, pt w b = P.1 := ⟨⟨_, h b (by simp)⟩, rfl⟩
    exact ⟨P :: Ps, by rw [List.map_cons, List.map_cons, hPs, hP]⟩

theorem forall₂_cast {c M : ℕ} {w : ℕ → ZMod p} {xs : List (Item p)} {wss : List (List ℕ)}
    (h : List.Forall₂ (WinOK c M w) xs wss) :
    (wss.map (winVal c w)).map (fun n : ℕ => (n : ZMod p)) = xs.map (fun x => w x.s) ∧
      ∀ n ∈ wss.map (winVal c w), n < 2 ^ (c * M) := by
  induction h with
  | nil => exact ⟨rfl, by simp⟩
  | cons h1 h2 ih =>
    refine ⟨?_, ?_⟩
    · rw [List.map_cons, List.map_cons, List.map_cons, h1.cast, ih.1]
    · intro n hn
      rcases List.mem_cons.1 hn with rfl | hn
      · exact h1.lt
      · exact ih.2 n hn

theorem sum_swap {E : EdGroup (ZMod p)} {c : ℕ} {w : ℕ → ZMod p} (Ps : List E.Pt) (wss : List (List ℕ)) :
    (List.zipWith (fun (P : E.Pt) ws => winVal c w ws • P) Ps wss) =
      List.zipWith (fun n (P : E.Pt) => n • P) (wss.map (winVal c w)) Ps := by
  rw [List.zipWith_map_left, List.zipWith_comm]

/-- `cᵢ` items with chosen window values -/
def advItem (c M : ℕ) (x : ((ℕ × ℕ) × ℕ) × ℕ) : Item p :=
  ⟨x.1.1, x.1.2, fun _ => (windowValues c M x.2).map (fun n : ℕ => (n : ZMod p))⟩

/-- the gadget as a builder for items -/
def runItems (K : TE p) (bits : ℕ) (bases : List (ℕ × ℕ)) (scalars : List ℕ) (xs : List (Item p)) : Build p (ℕ × ℕ) := do
  let l ← supportLookup
  if l then (msmPippengerW K (msmWindow bits) xs >>= fun r => pure r.1) else msmNaive K bases scalars bits

theorem msmWithLength_eq (K : TE p) {bits : ℕ} (hb : bits ≠ 0) {bases : List (ℕ × ℕ)} {scalars : List ℕ}
    (hl : bases.length = scalars.length) :
    msmWithLength K bases scalars bits =
      runItems K bits bases scalars ((bases.zip scalars).map (honestItem (msmWindow bits) bits)) := by
  unfold msmWithLength runItems
  rw [if_neg (by simpa using hl), msmPippenger_eq K hb]

theorem checkPoints_rel (bases : List (ℕ × ℕ)) : Rel (checkPoints bases : Build p Unit) (checkPoints bases) := by
  induction bases with
  | nil => exact Rel.pure _
  | cons b bs ih => exact Rel.bind (checkPoint_rel _) fun _ => ih

theorem naiveLoop_rel (K : TE p) (bits : ℕ) (xs : List ((ℕ × ℕ) × ℕ)) : ∀ res,
    Rel (naiveLoop K bits xs res) (naiveLoop K bits xs res) := by
  induction xs with
  | nil => intro res; exact Rel.pure _
  | cons x xs ih =>
    intro res
    obtain ⟨b, s⟩ := x
    unfold naiveLoop
    exact Rel.bind (unpack_rel _ _) fun _ => Rel.bind (variableBaseBinaryScalarMul_rel _ _ _) fun _ =>
      Rel.bind (eccAdd_rel _ _ _) fun _ => ih _

theorem msmNaive_rel (K : TE p) (bases : List (ℕ × ℕ)) (scalars : List ℕ) (bits : ℕ) :
    Rel (msmNaive K bases scalars bits) (msmNaive K bases scalars bits) := by
  unfold msmNaive
  refine Rel.bind (Rel.checkVars _) fun _ => Rel.bind (checkPoints_rel _) fun _ => ?_
  split
  · exact Rel.failL _ _
  · exact Rel.bind (unpack_rel _ _) fun _ => Rel.bind (variableBaseBinaryScalarMul_rel _ _ _) fun _ =>
      naiveLoop_rel _ _ _ _

theorem runItems_rel (K : TE p) (bits : ℕ) (bases : List (ℕ × ℕ)) (scalars : List ℕ) (xs ys : List (Item p))
    (h : List.Forall₂ (fun x y : Item p => x.base = y.base ∧ x.s = y.s ∧ ∀ a b, (x.f a).length = (y.f b).length) xs ys) :
    Rel (runItems K bits bases scalars xs) (runItems K bits bases scalars ys) := by
  unfold runItems
  refine Rel.bind Rel.supportLookup fun l => ?_
  cases l with
  | false => exact msmNaive_rel K bases scalars bits
  | true => exact Rel.bind (msmPippengerW_rel K _ xs ys h) fun _ => Rel.pure _

/-- the specification of `runItems` -/
theorem runItems_tspec {K : TE p} {E : EdGroup (ZMod p)} (hE : OnTE K E) {bits M : ℕ} (h1c : 1 ≤ msmWindow bits)
    (hcp : 2 ^ msmWindow bits < p) (hcr : 2 ^ msmWindow bits ≤ K.r) (hM : M ≠ 0) (bases : List (ℕ × ℕ))
    (scalars : List ℕ) (xs : List (Item p)) (hxs : xs ≠ []) {cir : Circ p} (hc : TWF xs.length cir)
    (hx : ∀ x ∈ xs, PIn cir x.base ∧ x.s < cir.numVars ∧ ∀ y, (x.f y).length = M) :
    TSpec xs.length (runItems K bits bases scalars xs) cir
      (∀ x ∈ xs, (∃ P : E.Pt, ptAt cir.val x.base = P.1) ∧
          cir.val x.s = horner ((2 ^ msmWindow bits : ℕ) : ZMod p) (x.f (cir.val x.s)) ∧
          ∀ d ∈ x.f (cir.val x.s), d.val < 2 ^ msmWindow bits)
      (fun v c' => ∃ wss : List (List ℕ),
        wss.map (fun ws => ws.map c'.val) = xs.map (fun x => x.f (cir.val x.s)) ∧
        (∀ x ∈ xs, c'.val x.s = cir.val x.s) ∧ (∀ x ∈ xs, ptAt c'.val x.base = ptAt cir.val x.base) ∧
        ∀ pi, Sat c' pi c'.val → List.Forall₂ (WinOK (msmWindow bits) M c'.val) xs wss ∧
        ∀ Ps : List E.Pt, xs.map (fun x => ptAt c'.val x.base) = Ps.map (fun P : E.Pt => P.1) →
          ptAt c'.val v =
            ((List.zipWith (fun n (P : E.Pt) => n • P) (wss.map (winVal (msmWindow bits) c'.val)) Ps).sum).1)
      (fun v w => ∃ wss : List (List ℕ), List.Forall₂ (WinOK (msmWindow bits) M w) xs wss ∧
        ∀ Ps : List E.Pt, xs.map (fun x => ptAt w x.base) = Ps.map (fun P : E.Pt => P.1) →
          ptAt w v = ((List.zipWith (fun n (P : E.Pt) => n • P) (wss.map (winVal (msmWindow bits) w)) Ps).sum).1) := by
  have h := msmPippengerW_tspec hE h1c hcp hcr hM xs hxs hc hx
  unfold runItems
  refine TSpec.of_eq (v := true) ?_ ?_
  · unfold supportLookup
    obtain ⟨u, hu⟩ := Option.ne_none_iff_exists'.1 hc.ultra
    rw [hu]; rfl
  simp only [if_true]
  constructor
  · intro v c' hm
    obtain ⟨r, c1, h1, h2⟩ := bind_ok hm
    cases h2
    obtain ⟨e, ⟨-, b⟩, hr⟩ := h.sound r c' h1
    refine ⟨e, ⟨r.2, b, fun x hx' => e.val _ (hx x hx').2.1, fun x hx' => ptAt_text e (hx x hx').1, fun pi hs => ?_⟩,
      fun pi w hs => ?_⟩
    · obtain ⟨g1, g2⟩ := hr pi _ hs
      exact ⟨g1, fun Ps hPs => by rw [g2 Ps hPs, sum_swap]⟩
    · obtain ⟨g1, g2⟩ := hr pi _ hs
      exact ⟨r.2, g1, fun Ps hPs => by rw [g2 Ps hPs, sum_swap]⟩
  · intro hC pi hs
    obtain ⟨r, c', h1, h2⟩ := h.complete hC pi hs
    exact ⟨r.1, c', by rw [bind_of_ok h1]; rfl, h2⟩

theorem zip_map_fst {α β γ : Type} (f : α → γ) (xs : List α) : ∀ ys : List β, xs.length = ys.length →
    (xs.zip ys).map (fun x => f x.1) = xs.map f := by
  induction xs with
  | nil => intro ys _; simp
  | cons x xs ih =>
    intro ys h
    cases ys with
    | nil => simp at h
    | cons y ys => rw [List.zip_cons_cons, List.map_cons, List.map_cons, ih ys (by simpa using h)]

theorem zip_map_snd {α β γ : Type} (f : β → γ) (xs : List α) : ∀ ys : List β, xs.length = ys.length →
    (xs.zip ys).map (fun x => f x.2) = ys.map f := by
  induction xs with
  | nil =>
    intro ys h
    have : ys = [] := by simpa using h.symm
    subst this; rfl
  | cons x xs ih =>
    intro ys h
    cases ys with
    | nil => simp at h
    | cons y ys => rw [List.zip_cons_cons, List.map_cons, List.map_cons, ih ys (by simpa using h)]

theorem mem_zip' {α β : Type} {xs : List α} {ys : List β} {x : α × β} (h : x ∈ xs.zip ys) : x.1 ∈ xs ∧ x.2 ∈ ys :=
  List.of_mem_zip (a := x.1) (b := x.2) h

theorem cast_windowValues (c M n : ℕ) :
    horner ((2 ^ c : ℕ) : ZMod p) ((windowValues c M n).map (fun n : ℕ => (n : ZMod p))) =
      ((n % 2 ^ (c * M) : ℕ) : ZMod p) := by
  rw [horner_natCast, horner_windowValues]

theorem val_windowValues {c M n : ℕ} (hcp : 2 ^ c < p) :
    ∀ d ∈ (windowValues c M n).map (fun n : ℕ => (n : ZMod p)), d.val < 2 ^ c := by
  intro d hd
  obtain ⟨k, hk, rfl⟩ := List.mem_map.1 hd
  have := windowValues_lt c M n k hk
  rw [ZMod.val_natCast, Nat.mod_eq_of_lt (by omega)]
  exact this

theorem winVal_chosen {c M n : ℕ} (hcp : 2 ^ c < p) {w : ℕ → ZMod p} {ws : List ℕ}
    (h : ws.map w = (windowValues c M n).map (fun n : ℕ => (n : ZMod p))) : winVal c w ws = n % 2 ^ (c * M) := by
  rw [← horner_windowValues, winVal]
  congr 1
  have : ws.map (fun v => (w v).val) = (ws.map w).map ZMod.val := by rw [List.map_map]; rfl
  rw [this, h, List.map_map]
  refine Eq.trans (List.map_congr_left fun k hk => ?_) (List.map_id _)
  have := windowValues_lt c M n k hk
  show ((k : ℕ) : ZMod p).val = k
  rw [ZMod.val_natCast, Nat.mod_eq_of_lt (by omega)]

theorem chosen {c M : ℕ} (hcp : 2 ^ c < p) {w : ℕ → ZMod p} {xs : List (Item p)} {wss : List (List ℕ)} {y : ℕ → ZMod p}
    {n : Item p → ℕ} (h : List.Forall₂ (WinOK c M w) xs wss)
    (he : wss.map (fun ws => ws.map w) = xs.map (fun x => x.f (y x.s)))
    (hn : ∀ x ∈ xs, x.f (y x.s) = (windowValues c M (n x)).map (fun n : ℕ => (n : ZMod p))) :
    wss.map (winVal c w) = xs.map (fun x => n x % 2 ^ (c * M)) ∧
      ∀ x ∈ xs, w x.s = ((n x % 2 ^ (c * M) : ℕ) : ZMod p) := by
  have h1 : wss.map (winVal c w) = xs.map (fun x => n x % 2 ^ (c * M)) := by
    have h2 := congrArg (List.map (fun ds : List (ZMod p) => horner (2 ^ c) (ds.map ZMod.val))) he
    rw [List.map_map, List.map_map] at h2
    refine Eq.trans (List.map_congr_left fun ws _ => ?_) (h2.trans (List.map_congr_left fun x hx => ?_))
    · show winVal c w ws = horner (2 ^ c) ((ws.map w).map ZMod.val)
      rw [List.map_map]; rfl
    · show horner (2 ^ c) ((x.f (y x.s)).map ZMod.val) = _
      rw [hn x hx, ← horner_windowValues, List.map_map]
      congr 1
      refine Eq.trans (List.map_congr_left fun k hk => ?_) (List.map_id _)
      have := windowValues_lt c M (n x) k hk
      show ((k : ℕ) : ZMod p).val = k
      rw [ZMod.val_natCast, Nat.mod_eq_of_lt (by omega)]
  refine ⟨h1, ?_⟩
  have h3 := (forall₂_cast h).1
  rw [h1, List.map_map] at h3
  intro x hx
  exact (List.map_inj_left.1 h3 x hx).symm

theorem one_le_msmWindow (bits : ℕ) : 1 ≤ msmWindow bits := by
  unfold msmWindow lnWithoutFloats
  split
  · omega
  · have : 4 < Nat.size (bits - 1) := Nat.lt_size.2 (by omega)
    omega

theorem map_pt_agree {c : Circ p} {bases : List (ℕ × ℕ)} {scalars : List ℕ} (hd : Dom scalars bases c)
    {w w' : ℕ → ZMod p} (h : ∀ i, i < c.numVars → w' i = w i) : bases.map (pt w') = bases.map (pt w) :=
  List.map_congr_left fun _ hb => pt_congr hd h hb

/-! ## C34 -/

/-- **C34, circuits with lookups, exactly.** Let the bases be in the group. The possible results for given bases and
scalars `sᵢ` are `Σ nᵢ Pᵢ` for all choices of numbers `nᵢ < 2 ^ windowBits` with `nᵢ = sᵢ` in the native field. The
builder computes the result for the representatives `0 ≤ nᵢ < p`, and succeeds if and only if these have at most
`windowBits` bits. -/
theorem C34_lookup (K : TE p) (E : EdGroup (ZMod p)) (ha : E.a = K.a) (hd : E.d = K.d) (bases : List (ℕ × ℕ))
    (scalars : List ℕ) (bits : ℕ) (hb : bits ≠ 0) (hl : bases.length = scalars.length) (hne : bases ≠ [])
    (hcp : 2 ^ msmWindow bits < p) (hcr : 2 ^ msmWindow bits ≤ K.r) :
    TableExact bases.length (msmWithLength K bases scalars bits) (LDom bases scalars)
      (fun w => ∀ b ∈ bases, E.mem (pt w b)) (fun w v => pt w v)
      (fun w S => ∃ ns : List ℕ, ns.map (fun n : ℕ => (n : ZMod p)) = scalars.map w ∧
        (∀ n ∈ ns, n < 2 ^ windowBits bits) ∧ IsMsm E w bases ns S)
      (fun w => ∀ s ∈ scalars, (w s).val < 2 ^ windowBits bits)
      (fun w S => IsMsm E w bases (scalars.map fun s => (w s).val) S) := by
  have hE : OnTE K E := ⟨ha, hd⟩
  have h1c := one_le_msmWindow bits
  have hM : windowCount (msmWindow bits) bits ≠ 0 := Nat.succ_ne_zero _
  have hlen : ∀ f : ((ℕ × ℕ) × ℕ) → Item p, ((bases.zip scalars).map f).length = bases.length := by
    intro f; rw [List.length_map, List.length_zip]; omega
  have hzne : bases.zip scalars ≠ [] := by
    intro h
    have := congrArg List.length h
    rw [List.length_zip] at this
    have h3 : bases.length ≠ 0 := fun h => hne (List.length_eq_zero_iff.1 h)
    simp at this
    rcases this with h | h
    · exact hne h
    · rw [h] at hl; simp at hl; exact hne hl
  rw [msmWithLength_eq K hb hl]
  have hin : ∀ (c : Circ p), LDom bases scalars c → ∀ x ∈ bases.zip scalars, PIn c x.1 ∧ x.2 < c.numVars := by
    intro c hc x hx
    obtain ⟨g1, g2⟩ := mem_zip' hx
    exact ⟨hc.1.2 _ g1, hc.1.1 _ g2⟩
  refine TableExact.of_spec ?_ (fun _ _ h => h) (fun _ h => h.2) ?_ ?_ ?_ ?_
  · refine runItems_rel K bits bases scalars _ _ ?_
    rw [List.forall₂_same]
    intro x hx
    obtain ⟨y, -, rfl⟩ := List.mem_map.1 hx
    exact ⟨rfl, rfl, fun a b => by simp [honestItem, windowValues_length]⟩
  · intro c w w' hdm hag hp b hb'
    rw [pt_congr hdm.1 hag hb']; exact hp b hb'
  · rintro c w w' y hdm hag ⟨ns, h1, h2, Ps, h3, h4⟩
    refine ⟨ns, ?_, h2, Ps, ?_, h4⟩
    · rw [h1]; exact List.map_congr_left fun s hs => (hag s (hdm.1.1 s hs)).symm
    · rw [map_pt_agree hdm.1 hag]; exact h3
  · intro c hc hdm
    set xs := (bases.zip scalars).map (honestItem (p := p) (msmWindow bits) bits) with hxs
    have hxl : xs.length = bases.length := hlen _
    have hsp := runItems_tspec hE h1c hcp hcr hM bases scalars xs (by rw [hxs]; simpa using hzne) (by rw [hxl]; exact hc)
      (by
        intro x hx
        obtain ⟨y, hy, rfl⟩ := List.mem_map.1 hx
        exact ⟨(hin c hdm y hy).1, (hin c hdm y hy).2, fun z => by simp [honestItem, windowValues_length]⟩)
    rw [hxl] at hsp
    have hbs : ∀ w : ℕ → ZMod p, xs.map (fun x => ptAt w x.base) = bases.map (pt w) := by
      intro w
      rw [hxs, List.map_map]
      exact zip_map_fst (pt w) bases scalars hl
    have hss : ∀ {γ : Type} (f : ℕ → γ), xs.map (fun x => f x.s) = scalars.map f := by
      intro γ f
      rw [hxs, List.map_map]
      exact zip_map_snd f bases scalars hl
    refine TSpec.conseq hc.wf hsp ?_ ?_ ?_
    · rintro ⟨hp, hh⟩ - - x hx
      obtain ⟨y, hy, rfl⟩ := List.mem_map.1 hx
      obtain ⟨g1, g2⟩ := mem_zip' hy
      refine ⟨⟨⟨_, hp _ g1⟩, rfl⟩, ?_, val_windowValues hcp⟩
      show c.val y.2 = horner _ ((windowValues _ _ (c.val y.2).val).map _)
      rw [cast_windowValues, Nat.mod_eq_of_lt (show (c.val y.2).val < 2 ^ (_ * _) from hh _ g2), ZMod.natCast_zmod_val]
    · rintro v c' - ⟨wss, b1, b2, b3, b4⟩ pi hs hp
      obtain ⟨g1, g2⟩ := b4 pi hs
      obtain ⟨k1, k2⟩ := chosen hcp (n := fun x => (c.val x.s).val) g1 b1 (by
        intro x hx
        obtain ⟨y, hy, rfl⟩ := List.mem_map.1 hx
        rfl)
      have hmod : ∀ s ∈ scalars, (c.val s).val % 2 ^ windowBits bits = (c.val s).val := by
        intro s hs'
        have : s ∈ xs.map (fun x => x.s) := by rw [hss (fun s => s)]; simpa using hs'
        obtain ⟨x, hx, rfl⟩ := List.mem_map.1 this
        have h3 := k2 x hx
        rw [b2 x hx] at h3
        have h4 := congrArg ZMod.val h3
        rw [ZMod.val_natCast, Nat.mod_eq_of_lt (lt_of_le_of_lt (Nat.mod_le _ _) (ZMod.val_lt _))] at h4
        exact h4.symm
      refine ⟨fun s hs' => ?_, ?_⟩
      · have := hmod s hs'
        rw [← this]; exact Nat.mod_lt _ (by positivity)
      · obtain ⟨Ps, hPs⟩ := exists_pts bases hp
        refine ⟨Ps, hPs, ?_⟩
        have e : xs.map (fun x => ptAt c'.val x.base) = xs.map (fun x => ptAt c.val x.base) :=
          List.map_congr_left fun x hx => b3 x hx
        show ptAt c'.val v = _
        rw [g2 Ps (by rw [e, hbs, hPs]), k1, hss (fun s => (c.val s).val % _)]
        congr 3
        exact List.map_congr_left fun s hs' => hmod s hs'
    · rintro v w - - ⟨wss, g1, g2⟩ hp
      obtain ⟨k1, k2⟩ := forall₂_cast g1
      obtain ⟨Ps, hPs⟩ := exists_pts bases hp
      exact ⟨_, by rw [k1, hss w], k2, Ps, hPs, g2 Ps (by rw [hbs, hPs])⟩
  · rintro c y hc hdm hp ⟨ns, h1, h2, Ps, h3, h4⟩
    have hnl : ns.length = scalars.length := by
      have := congrArg List.length h1
      simpa using this
    have hzl : (bases.zip scalars).length = ns.length := by rw [List.length_zip]; omega
    set xs := ((bases.zip scalars).zip ns).map
      (advItem (p := p) (msmWindow bits) (windowCount (msmWindow bits) bits)) with hxs
    have hxl : xs.length = bases.length := by
      rw [hxs, List.length_map, List.length_zip, List.length_zip]; omega
    refine ⟨runItems K bits bases scalars xs, runItems_rel K bits bases scalars _ _ ?_, ?_⟩
    · rw [hxs, List.forall₂_map_left_iff, List.forall₂_map_right_iff, List.forall₂_iff_get]
      refine ⟨by simp only [List.length_zip]; omega, fun i hi hi' => ?_⟩
      refine ⟨?_, ?_, fun a b => ?_⟩
      · simp [honestItem, advItem]
      · simp [honestItem, advItem]
      · simp [honestItem, advItem, windowValues_length]
    have hbs : ∀ w : ℕ → ZMod p, xs.map (fun x => ptAt w x.base) = bases.map (pt w) := by
      intro w
      rw [hxs, List.map_map]
      have e := zip_map_fst (fun x : (ℕ × ℕ) × ℕ => pt w x.1) (bases.zip scalars) ns hzl
      rw [zip_map_fst (pt w) bases scalars hl] at e
      exact e
    have hval : ∀ x ∈ (bases.zip scalars).zip ns, c.val x.1.2 = (x.2 : ZMod p) ∧ x.2 < 2 ^ windowBits bits := by
      have e1 := zip_map_fst (fun x : (ℕ × ℕ) × ℕ => c.val x.2) (bases.zip scalars) ns hzl
      have e2 := zip_map_snd (fun n : ℕ => (n : ZMod p)) (bases.zip scalars) ns hzl
      rw [zip_map_snd c.val bases scalars hl, ← h1, ← e2] at e1
      intro x hx
      exact ⟨List.map_inj_left.1 e1 x hx, h2 _ (mem_zip' hx).2⟩
    have hxin : ∀ x ∈ xs, ∃ y ∈ (bases.zip scalars).zip ns, advItem (msmWindow bits) (windowCount (msmWindow bits) bits) y = x :=
      fun x hx => List.mem_map.1 hx
    have hsp := runItems_tspec hE h1c hcp hcr hM bases scalars xs
      (by intro h; rw [h] at hxl; exact hne (List.length_eq_zero_iff.1 hxl.symm)) (by rw [hxl]; exact hc)
      (by
        intro x hx
        obtain ⟨y, hy, rfl⟩ := hxin x hx
        have := hin c hdm y.1 (mem_zip' hy).1
        exact ⟨this.1, this.2, fun z => by simp [advItem, windowValues_length]⟩)
    rw [hxl] at hsp
    refine TSpec.conseq hc.wf hsp ?_ ?_ (fun _ _ _ _ _ => trivial)
    · rintro - - - x hx
      obtain ⟨y, hy, rfl⟩ := hxin x hx
      refine ⟨⟨⟨_, hp _ (mem_zip' (mem_zip' hy).1).1⟩, rfl⟩, ?_, val_windowValues hcp⟩
      show c.val y.1.2 = horner _ ((windowValues _ _ y.2).map _)
      rw [cast_windowValues, Nat.mod_eq_of_lt (show y.2 < 2 ^ (_ * _) from (hval y hy).2), (hval y hy).1]
    · rintro v c' - ⟨wss, b1, b2, b3, b4⟩ pi hs
      obtain ⟨g1, g2⟩ := b4 pi hs
      have hwin : wss.map (winVal (msmWindow bits) c'.val) = ns := by
        have h5 := congrArg (List.map (fun ds : List (ZMod p) => horner (2 ^ msmWindow bits) (ds.map ZMod.val))) b1
        rw [List.map_map, List.map_map, hxs, List.map_map] at h5
        have h6 : wss.map (winVal (msmWindow bits) c'.val) = ((bases.zip scalars).zip ns).map (fun x => x.2) := by
          refine Eq.trans (List.map_congr_left fun ws _ => ?_) (h5.trans (List.map_congr_left fun x hx => ?_))
          · show winVal (msmWindow bits) c'.val ws = horner (2 ^ msmWindow bits) ((ws.map c'.val).map ZMod.val)
            rw [List.map_map]; rfl
          · show horner (2 ^ msmWindow bits) (((windowValues _ _ x.2).map _).map ZMod.val) = _
            rw [List.map_map]
            have h7 : (windowValues (msmWindow bits) (windowCount (msmWindow bits) bits) x.2).map
                (ZMod.val ∘ fun n : ℕ => (n : ZMod p)) =
                windowValues (msmWindow bits) (windowCount (msmWindow bits) bits) x.2 := by
              refine Eq.trans (List.map_congr_left fun k hk => ?_) (List.map_id _)
              have := windowValues_lt _ _ x.2 k hk
              show ((k : ℕ) : ZMod p).val = k
              rw [ZMod.val_natCast, Nat.mod_eq_of_lt (by omega)]
            rw [h7, horner_windowValues]
            exact Nat.mod_eq_of_lt (hval x hx).2
        rw [h6]
        have := zip_map_snd (fun n : ℕ => n) (bases.zip scalars) ns hzl
        rw [this]; exact List.map_id _
      have e : xs.map (fun x => ptAt c'.val x.base) = xs.map (fun x => ptAt c.val x.base) :=
        List.map_congr_left fun x hx => b3 x hx
      show ptAt c'.val v = y
      rw [g2 Ps (by rw [e, hbs, h3]), hwin, h4]

/-- the result of the gadget is a pair of existing variables -/
theorem msm_lookup_in {K : TE p} {E : EdGroup (ZMod p)} (hE : OnTE K E) {bases : List (ℕ × ℕ)}
    {scalars : List ℕ} {bits : ℕ} (hb : bits ≠ 0) (hl : bases.length = scalars.length) (hne : bases ≠ [])
    (hcp : 2 ^ msmWindow bits < p) (hcr : 2 ^ msmWindow bits ≤ K.r) {c : Circ p} (hc : TWF bases.length c)
    (hdm : LDom bases scalars c) {v : ℕ × ℕ} {c' : Circ p}
    (hm : msmWithLength K bases scalars bits c = .ok (v, c')) : PIn c' v := by
  rw [msmWithLength_eq K hb hl] at hm
  unfold runItems at hm
  obtain ⟨u, hu⟩ := Option.ne_none_iff_exists'.1 hdm.2
  rw [bind_of_ok (u := true) (c1 := c) (by unfold supportLookup; rw [hu]; rfl)] at hm
  simp only [if_true] at hm
  obtain ⟨r, c1, h1, h2⟩ := bind_ok hm
  cases h2
  have hxl : ((bases.zip scalars).map (honestItem (p := p) (msmWindow bits) bits)).length = bases.length := by
    rw [List.length_map, List.length_zip]; omega
  refine ((msmPippengerW_tspec hE (one_le_msmWindow bits) hcp hcr
    (M := windowCount (msmWindow bits) bits) (Nat.succ_ne_zero _) _ ?_ (by rw [hxl]; exact hc) ?_).sound r _ h1).2.1.1
  · intro h
    rw [h] at hxl
    exact hne (List.length_eq_zero_iff.1 hxl.symm)
  · intro x hx
    obtain ⟨y, hy, rfl⟩ := List.mem_map.1 hx
    obtain ⟨g1, g2⟩ := mem_zip' hy
    exact ⟨hdm.1.2 _ g1, hdm.1.1 _ g2, fun z => by simp [honestItem, windowValues_length]⟩

/-- the representatives are the values -/
theorem reps_eq {N : ℕ} (hN : N ≤ p) {w : ℕ → ZMod p} {ns scalars : List ℕ}
    (h : ns.map (fun n : ℕ => (n : ZMod p)) = scalars.map w) (hn : ∀ n ∈ ns, n < N) :
    ns = scalars.map (fun s => (w s).val) := by
  have h1 := congrArg (List.map ZMod.val) h
  rw [List.map_map, List.map_map] at h1
  refine Eq.trans (Eq.symm (Eq.trans (List.map_congr_left fun n hn' => ?_) (List.map_id _))) h1
  have := hn n hn'
  show ((n : ℕ) : ZMod p).val = n
  rw [ZMod.val_natCast, Nat.mod_eq_of_lt (by omega)]

/-- **C34, circuits with lookups, windows within the field.** If numbers of `windowBits` bits are smaller than the
characteristic, then the only possible result is the sum of the multiples, and scalars of more than `windowBits` bits are
rejected. -/
theorem C34_lookup_sound (K : TE p) (E : EdGroup (ZMod p)) (ha : E.a = K.a) (hd : E.d = K.d) (bases : List (ℕ × ℕ))
    (scalars : List ℕ) (bits : ℕ) (hb : bits ≠ 0) (hl : bases.length = scalars.length) (hne : bases ≠ [])
    (hcr : 2 ^ msmWindow bits ≤ K.r) (hp : 2 ^ windowBits bits < p) :
    TableExact bases.length (msmWithLength K bases scalars bits) (LDom bases scalars)
      (fun w => ∀ b ∈ bases, E.mem (pt w b)) (fun w v => pt w v)
      (fun w S => (∀ s ∈ scalars, (w s).val < 2 ^ windowBits bits) ∧ IsMsm E w bases (scalars.map fun s => (w s).val) S)
      (fun w => ∀ s ∈ scalars, (w s).val < 2 ^ windowBits bits)
      (fun w S => IsMsm E w bases (scalars.map fun s => (w s).val) S) := by
  have hcp : 2 ^ msmWindow bits < p := by
    refine lt_of_le_of_lt (Nat.pow_le_pow_right (by omega) ?_) hp
    exact Nat.le_mul_of_pos_right _ (Nat.succ_pos _)
  have h := C34_lookup K E ha hd bases scalars bits hb hl hne hcp hcr
  refine ⟨h.wf, h.old, h.frame, ?_, h.honest, h.shape⟩
  intro c hc ht hr hdm v c' hm pi w hw hpre y
  rw [h.exact c hc ht hr hdm v c' hm pi w hw hpre y]
  constructor
  · rintro ⟨ns, h1, h2, h3⟩
    have e := reps_eq hp.le h1 h2
    subst e
    exact ⟨fun s hs => h2 _ (List.mem_map_of_mem hs), h3⟩
  · rintro ⟨h1, h2⟩
    refine ⟨_, ?_, ?_, h2⟩
    · rw [List.map_map]
      exact List.map_congr_left fun s _ => ZMod.natCast_zmod_val _
    · intro n hn
      obtain ⟨s, hs, rfl⟩ := List.mem_map.1 hn
      exact h1 s hs

/-- **C34, circuits with lookups, windows beyond the field.** If `(w s).val + p` still fits into the windows, then
`s • P + p • P` is also a possible result. -/
theorem C34_lookup_alias (K : TE p) (E : EdGroup (ZMod p)) (ha : E.a = K.a) (hd : E.d = K.d) (base : ℕ × ℕ) (s bits : ℕ)
    (hb : bits ≠ 0) (hcp : 2 ^ msmWindow bits < p) (hcr : 2 ^ msmWindow bits ≤ K.r) (c : Circ p) (hc : WF c)
    (ht : TablesOK c) (hr : c.tableGateIds.length + 1 < p) (hdm : LDom [base] [s] c) (v : ℕ × ℕ) (c' : Circ p)
    (hm : msmWithLength K [base] [s] bits c = .ok (v, c')) (pi : List (ZMod p)) (w : ℕ → ZMod p) (hw : Sat c pi w)
    (P : E.Pt) (hP : pt w base = P.1) (hlt : (w s).val + p < 2 ^ windowBits bits) :
    ∃ w' : ℕ → ZMod p, (∀ i, i < c.numVars → w' i = w i) ∧ Sat c' pi w' ∧ pt w' v = ((w s).val • P + p • P).1 := by
  refine ((C34_lookup K E ha hd [base] [s] bits hb rfl (by simp) hcp hcr).exact c hc ht hr hdm v c' hm pi w hw ?_ _).2
    ⟨[(w s).val + p], ?_, ?_, [P], ?_, ?_⟩
  · intro b hb'
    have : b = base := by simpa using hb'
    rw [this, hP]; exact P.2
  · simp
  · intro n hn
    have : n = (w s).val + p := by simpa using hn
    rw [this]; exact hlt
  · simp [hP]
  · simp [add_smul]

/-! ## C34, circuits without lookups -/

theorem ofBits_unpacked {n x : ℕ} (h : x < 2 ^ n) : ofBits (bitsLE n x) = x := by
  rw [ofBits_bitsLE, Nat.mod_eq_of_lt h]

theorem naiveLoop_spec (hp : p ≠ 2) {K : TE p} {E : EdGroup (ZMod p)} (hE : OnTE K E) {bits : ℕ}
    (hn : bits ≤ modulusBits p) (h0 : 0 < bits) (xs : List ((ℕ × ℕ) × ℕ)) :
    ∀ {c : Circ p} (_ : WF c) (res : ℕ × ℕ) (_ : PIn c res) (_ : ∀ x ∈ xs, PIn c x.1 ∧ x.2 < c.numVars),
    Spec (naiveLoop K bits xs res) c
      ((∃ Q : E.Pt, ptAt c.val res = Q.1) ∧
        ∀ x ∈ xs, (∃ P : E.Pt, ptAt c.val x.1 = P.1) ∧ (c.val x.2).val < 2 ^ bits)
      (fun v c' => PIn c' v)
      (fun v w => (∀ x ∈ xs, (w x.2).val < 2 ^ bits) ∧ ∀ (Q : E.Pt) (Ps : List E.Pt), ptAt w res = Q.1 →
        xs.map (fun x => ptAt w x.1) = Ps.map (fun P : E.Pt => P.1) →
        ptAt w v = (Q + (List.zipWith (fun n (P : E.Pt) => n • P) (xs.map fun x => (w x.2).val) Ps).sum).1) := by
  induction xs with
  | nil =>
    intro c hc res hr hx
    unfold naiveLoop
    exact Spec.pure hc hr (fun w _ _ => ⟨by simp, fun Q Ps h _ => by simpa using h⟩)
  | cons x xs ih =>
    intro c hc res hr hx
    obtain ⟨base, s⟩ := x
    obtain ⟨hb, hs⟩ := hx (base, s) (by simp)
    have hxs : ∀ x ∈ xs, PIn c x.1 ∧ x.2 < c.numVars := fun x h => hx x (by simp [h])
    unfold naiveLoop
    refine Spec.bind (unpack_spec hp hc s bits hn) ?_ hc ?_
    · rintro ⟨-, h⟩ - -
      exact ⟨hs, h0, (h (base, s) (by simp)).2⟩
    rintro bs c1 e1 ⟨h1, h2, -⟩
    refine Spec.bind (variableBaseBinaryScalarMul_spec e1.wf hE bs base) ?_ e1.wf ?_
    · rintro ⟨⟨-, h⟩, h4⟩ - -
      obtain ⟨⟨P, hP⟩, -⟩ := h (base, s) (by simp)
      exact ⟨⟨h2, hb.ext e1⟩, ⟨P, by rw [ptAt_ext e1 hb]; exact hP⟩, _, h4.2⟩
    rintro t c2 e2 ht
    have e02 := e1.trans e2
    refine Spec.bind (eccAdd_group e2.wf hE res t) ?_ e2.wf ?_
    · rintro ⟨⟨⟨⟨Q, hQ⟩, h⟩, h4⟩, h5⟩ - -
      obtain ⟨⟨P, hP⟩, -⟩ := h (base, s) (by simp)
      refine ⟨⟨hr.ext e02, ht⟩, Q, _, by rw [ptAt_ext e02 hr]; exact hQ,
        h5 P (bitsLE bits (c1.val s).val) (by rw [ptAt_ext e02 hb]; exact hP) ?_⟩
      rw [← h4.2]
      exact List.map_congr_left fun v hv => e2.val v (h2 v hv)
    rintro r c3 e3 hr3
    have e03 := e02.trans e3
    refine Spec.conseq e3.wf (ih e3.wf r hr3 fun x h => ⟨(hxs x h).1.ext e03, e03.lt (hxs x h).2⟩) ?_
      (fun _ _ _ h => h) ?_
    · rintro ⟨⟨⟨⟨⟨Q, hQ⟩, h⟩, h4⟩, h5⟩, h6⟩ - -
      obtain ⟨⟨P, hP⟩, -⟩ := h (base, s) (by simp)
      have g5 := h5 P (bitsLE bits (c1.val s).val) (by rw [ptAt_ext e02 hb]; exact hP) (by
        rw [← h4.2]
        exact List.map_congr_left fun v hv => e2.val v (h2 v hv))
      refine ⟨⟨_, h6 Q _ (by rw [ptAt_ext e03 hr]; exact hQ) (by rw [ptAt_ext e3 ht]; exact g5)⟩, ?_⟩
      intro x hx'
      obtain ⟨⟨P', hP'⟩, g⟩ := h x (by simp [hx'])
      exact ⟨⟨P', by rw [ptAt_ext e03 (hxs x hx').1]; exact hP'⟩, by rw [e03.val _ (hxs x hx').2]; exact g⟩
    · intro v w _ _ h3 h2' h1' h0'
      refine ⟨?_, ?_⟩
      · intro x hx'
        rcases List.mem_cons.1 hx' with rfl | hx'
        · exact h0'.1
        · exact h3.1 x hx'
      · intro Q Ps hQ hPs
        cases Ps with
        | nil => simp at hPs
        | cons P Ps =>
          simp only [List.map_cons, List.cons.injEq] at hPs
          have g1 := h1' P _ hPs.1 h0'.2
          rw [ofBits_unpacked h0'.1] at g1
          have g2 := h2' Q _ hQ g1
          rw [h3.2 _ Ps g2 hPs.2]
          simp only [List.map_cons, List.zipWith_cons_cons, List.sum_cons, add_assoc]

theorem checkPoints_ok {bases : List (ℕ × ℕ)} {c : Circ p} (h : ∀ b ∈ bases, PIn c b) :
    (checkPoints bases : Build p Unit) c = .ok ((), c) := by
  induction bases with
  | nil => rfl
  | cons b bs ih =>
    have g' : ∀ i, i < c.numVars → (checkVar i : Build p _) c = .ok ((), c) := by
      intro i hi; unfold checkVar; rw [if_neg (by omega)]
    obtain ⟨h1, h2⟩ := h b (by simp)
    unfold checkPoints
    rw [bind_of_ok (u := ()) (c1 := c) (by unfold checkPoint; rw [bind_of_ok (g' _ h1)]; exact g' _ h2)]
    exact ih fun x hx => h x (by simp [hx])

theorem msmWithLength_rel (K : TE p) {bits : ℕ} (hb : bits ≠ 0) {bases : List (ℕ × ℕ)} {scalars : List ℕ}
    (hl : bases.length = scalars.length) :
    Rel (msmWithLength K bases scalars bits) (msmWithLength K bases scalars bits) := by
  rw [msmWithLength_eq K hb hl]
  refine runItems_rel K bits bases scalars _ _ ?_
  rw [List.forall₂_same]
  intro x hx
  obtain ⟨y, -, rfl⟩ := List.mem_map.1 hx
  exact ⟨rfl, rfl, fun a b => by simp [honestItem, windowValues_length]⟩

/-- the gadget on circuits without lookups -/
theorem msm_no_lookup_spec (hp : p ≠ 2) {K : TE p} {E : EdGroup (ZMod p)} (hE : OnTE K E)
    (bases : List (ℕ × ℕ)) (scalars : List ℕ) (bits : ℕ) (hb : bits ≠ 0) (hn : bits ≤ Nat.size p)
    (hl : bases.length = scalars.length) (hne : bases ≠ []) {c : Circ p} (hc : WF c) (hu : c.ultra = none)
    (hdm : Dom scalars bases c) :
    Spec (msmWithLength K bases scalars bits) c
      ((∀ b ∈ bases, E.mem (pt c.val b)) ∧ ∀ s ∈ scalars, (c.val s).val < 2 ^ bits) (fun v c' => PIn c' v)
      (fun v w => (∀ s ∈ scalars, (w s).val < 2 ^ bits) ∧ ((∀ b ∈ bases, E.mem (pt w b)) →
        IsMsm E w bases (scalars.map fun s => (w s).val) (pt w v))) := by
  unfold msmWithLength
  rw [if_neg (by simpa using hl)]
  refine Spec.of_eq (v := false) (by unfold supportLookup; rw [hu]; rfl) ?_
  simp only [Bool.false_eq_true, if_false]
  unfold msmNaive
  refine Spec.checkVars_bind (fun _ => hdm.1) fun _ => ?_
  refine Spec.of_eq (v := ()) (checkPoints_ok hdm.2) ?_
  cases bases with
  | nil => exact absurd rfl hne
  | cons base bs =>
    cases scalars with
    | nil => simp at hl
    | cons s ss =>
      have hl' : bs.length = ss.length := by simpa using hl
      rw [List.zip_cons_cons]
      simp only
      have hs : s < c.numVars := hdm.1 s (by simp)
      have hbase : PIn c base := hdm.2 base (by simp)
      have hz : ∀ x ∈ bs.zip ss, PIn c x.1 ∧ x.2 < c.numVars := by
        intro x hx
        obtain ⟨g1, g2⟩ := mem_zip' hx
        exact ⟨hdm.2 _ (by simp [g1]), hdm.1 _ (by simp [g2])⟩
      refine Spec.bind (unpack_spec hp hc s bits hn) ?_ hc ?_
      · rintro ⟨-, h⟩ - -
        exact ⟨hs, Nat.pos_of_ne_zero hb, h s (by simp)⟩
      rintro us c1 e1 ⟨h1, h2, -⟩
      refine Spec.bind (variableBaseBinaryScalarMul_spec e1.wf hE us base) ?_ e1.wf ?_
      · rintro ⟨⟨h, -⟩, h4⟩ - -
        exact ⟨⟨h2, hbase.ext e1⟩, ⟨⟨_, h base (by simp)⟩, ptAt_ext e1 hbase⟩, _, h4.2⟩
      rintro t c2 e2 ht
      have e02 := e1.trans e2
      refine Spec.conseq e2.wf (naiveLoop_spec hp hE hn (Nat.pos_of_ne_zero hb) (bs.zip ss) e2.wf t ht
        fun x hx => ⟨(hz x hx).1.ext e02, e02.lt (hz x hx).2⟩) ?_ (fun _ _ _ h => h) ?_
      · rintro ⟨⟨⟨h, h'⟩, h4⟩, h5⟩ - -
        refine ⟨⟨_, h5 ⟨_, h base (by simp)⟩ (bitsLE bits (c1.val s).val) (ptAt_ext e02 hbase) ?_⟩, ?_⟩
        · rw [← h4.2]
          exact List.map_congr_left fun v hv => e2.val v (h2 v hv)
        · intro x hx
          obtain ⟨g1, g2⟩ := mem_zip' hx
          exact ⟨⟨⟨_, h _ (by simp [g1])⟩, ptAt_ext e02 (hz x hx).1⟩,
            by rw [e02.val _ (hz x hx).2]; exact h' _ (by simp [g2])⟩
      · intro v w _ _ h3 h2' h1'
        refine ⟨?_, ?_⟩
        · intro x hx
          rcases List.mem_cons.1 hx with rfl | hx
          · exact h1'.1
          · have : x ∈ (bs.zip ss).map (fun y => y.2) := by
              rw [zip_map_snd (fun s => s) bs ss hl']; simpa using hx
            obtain ⟨y, hy, rfl⟩ := List.mem_map.1 this
            exact h3.1 y hy
        · intro hmem
          obtain ⟨P, hP⟩ : ∃ P : E.Pt, pt w base = P.1 := ⟨⟨_, hmem base (by simp)⟩, rfl⟩
          obtain ⟨Ps, hPs⟩ := exists_pts (E := E) (w := w) bs fun b hb' => hmem b (by simp [hb'])
          have g1 := h2' P _ hP h1'.2
          rw [ofBits_unpacked h1'.1] at g1
          refine ⟨P :: Ps, by rw [List.map_cons, List.map_cons, hP, hPs], ?_⟩
          have g2 := h3.2 _ Ps g1 ((zip_map_fst (pt w) bs ss hl').trans hPs)
          rw [zip_map_snd (fun s => (w s).val) bs ss hl'] at g2
          simp only [List.map_cons, List.zipWith_cons_cons, List.sum_cons]
          exact g2

/-- **C34, circuits without lookups.** Scalars of more than `bits` bits are rejected; the result is the sum of the
multiples. -/
theorem C34_no_lookup (hp : p ≠ 2) (K : TE p) (E : EdGroup (ZMod p)) (ha : E.a = K.a) (hd : E.d = K.d)
    (bases : List (ℕ × ℕ)) (scalars : List ℕ) (bits : ℕ) (hb : bits ≠ 0) (hn : bits ≤ Nat.size p)
    (hl : bases.length = scalars.length) (hne : bases ≠ []) :
    Correct (msmWithLength K bases scalars bits) (fun c => Dom scalars bases c ∧ c.ultra = none)
      (fun w => (∀ b ∈ bases, E.mem (pt w b)) ∧ ∀ s ∈ scalars, (w s).val < 2 ^ bits)
      (fun v w => (∀ s ∈ scalars, (w s).val < 2 ^ bits) ∧ ((∀ b ∈ bases, E.mem (pt w b)) →
        IsMsm E w bases (scalars.map fun s => (w s).val) (pt w v))) := by
  have hE : OnTE K E := ⟨ha, hd⟩
  refine correct_of ?_ (fun _ _ h => h) ?_ ?_
  · exact msmWithLength_rel K hb hl
  · rintro c w w' ⟨hdm, -⟩ h ⟨h1, h2⟩
    exact ⟨fun b hb' => by rw [pt_congr hdm h hb']; exact h1 b hb', fun s hs => by rw [h s (hdm.1 s hs)]; exact h2 s hs⟩
  · rintro c hc ⟨hdm, hu⟩
    exact ⟨fun v c' => PIn c' v, msm_no_lookup_spec hp hE bases scalars bits hb hn hl hne hc hu hdm⟩

/-! ## The aliases on the curves of the library -/

/-- a circuit with lookups and variables `(2, 3)` for a point and `4` for a scalar -/
def demoMsm (p : ℕ) (x y s : ZMod p) : Circ p := { Circ.new p (some 8) with numVars := 5, witness := [0, 1, x, y, s] }

omit [Fact p.Prime] in
theorem demoMsm_wf (x y s : ZMod p) : WF (demoMsm p x y s) := by
  refine ⟨rfl, rfl, by simp [demoMsm], ⟨[], rfl⟩, ?_, by simp [demoMsm, Circ.new], by simp [demoMsm, Circ.new]⟩
  intro r hr
  simp [demoMsm, Circ.new] at hr
  rcases hr with rfl | rfl <;> simp [demoMsm]

omit [Fact p.Prime] in
theorem demoMsm_tables (x y s : ZMod p) : TablesOK (demoMsm p x y s) :=
  ⟨(tablesOK_new (p := p) (some 8)).rows⟩

omit [Fact p.Prime] in
theorem demoMsm_dom (x y s : ZMod p) : LDom [(2, 3)] [4] (demoMsm p x y s) :=
  ⟨⟨by simp [demoMsm], by simp [demoMsm]⟩, by simp [demoMsm, Circ.new]⟩

/-- The constraints of `msm` for the point `G` and the scalar 1 have a solution whose result is not `G`. -/
def MsmAlias (K : TE p) (G : ZMod p × ZMod p) : Prop :=
  ∃ v c' w, msm K [(2, 3)] [4] (demoMsm p G.1 G.2 1) = .ok (v, c') ∧ checkSat c' [] = .ok () ∧ pt c'.val v = G ∧
    Sat c' [] w ∧ pt w (2, 3) = G ∧ w 4 = 1 ∧ pt w v ≠ G

theorem alias_of (K : TE p) (E : EdGroup (ZMod p)) (ha : E.a = K.a) (hd : E.d = K.d) (P : E.Pt)
    (hb : Nat.size K.r ≠ 0) (hcp : 2 ^ msmWindow (Nat.size K.r) < p) (hcr : 2 ^ msmWindow (Nat.size K.r) ≤ K.r)
    (hlt : 1 + p < 2 ^ windowBits (Nat.size K.r)) (hP : p • P ≠ 0)
    (hck : checkSat (demoMsm p P.1.1 P.1.2 1) [] = .ok ()) : MsmAlias K P.1 := by
  have h := C34_lookup K E ha hd [(2, 3)] [4] (Nat.size K.r) hb rfl (by simp) hcp hcr
  have hp1 : 1 < p := (Fact.out : p.Prime).one_lt
  have : Fact (1 < p) := ⟨hp1⟩
  have hwf := demoMsm_wf P.1.1 P.1.2 1
  have hto := demoMsm_tables P.1.1 P.1.2 1
  have hr : (demoMsm p P.1.1 P.1.2 1).tableGateIds.length + [((2, 3) : ℕ × ℕ)].length < p := by
    simp [demoMsm, Circ.new]; exact hp1
  have hdm := demoMsm_dom P.1.1 P.1.2 1
  have hpt : pt (demoMsm p P.1.1 P.1.2 1).val (2, 3) = P.1 := rfl
  have h4 : (demoMsm p P.1.1 P.1.2 1).val 4 = 1 := rfl
  have hpre : ∀ b ∈ [((2, 3) : ℕ × ℕ)], E.mem (pt (demoMsm p P.1.1 P.1.2 1).val b) := by
    intro b hb'
    have : b = (2, 3) := by simpa using hb'
    rw [this, hpt]; exact P.2
  obtain ⟨hh, hres⟩ := h.honest _ hwf hto hr hdm [] hck hpre
  obtain ⟨v, c', hm, hs⟩ := hh.2 (by
    intro s hs
    have : s = 4 := by simpa using hs
    rw [this, h4, ZMod.val_one]; omega)
  have hsat := (checkSat_ok hwf []).1 hck
  obtain ⟨w, w1, w2, w3⟩ := C34_lookup_alias K E ha hd (2, 3) 4 (Nat.size K.r) hb hcp hcr _ hwf hto hr hdm v c' hm [] _
    hsat P hpt (by rw [h4, ZMod.val_one]; exact hlt)
  rw [h4, ZMod.val_one, one_nsmul] at w3
  obtain ⟨Ps, k1, k2⟩ := hres v c' hm hs
  have w5 : (demoMsm p P.1.1 P.1.2 1).numVars = 5 := rfl
  refine ⟨v, c', w, hm, hs, ?_, w2, ?_, ?_, ?_⟩
  · cases Ps with
    | nil => simp at k1
    | cons Q Qs =>
      simp only [List.map_cons, List.cons.injEq] at k1
      have hQ : Q = P := Subtype.ext (k1.1.symm.trans hpt)
      rw [k2, hQ]
      simp [h4, ZMod.val_one]
  · unfold pt
    rw [w1 2 (by omega), w1 3 (by omega)]
    exact hpt
  · rw [w1 4 (by omega)]; exact h4
  · rw [w3]
    intro h5
    have h6 : P + p • P = P := Subtype.ext h5
    exact hP (by simpa using h6)

/-- the lowest `n` bits, highest first -/
def bitsOf (n m : ℕ) : List Bool := (List.range n).reverse.map fun i => m.testBit i

theorem smul_ne {E : EdGroup (ZMod p)} (P : E.Pt) (n m : ℕ) (h : bitsBE (bitsOf n m) 0 = m)
    (h2 : (projMul E.a E.d (P.1.1, P.1.2, 1) (bitsOf n m) (0, 1, 1)).1 ≠ 0) : m • P ≠ 0 := by
  rw [← h]; exact smul_ne_zero_of_proj P _ h2

/-- the generator of `ark_ed_on_bn254` -/
def bnPt : edBn254G.Pt := ⟨(19698561148652590122159747500897617769866003486955115824547446575314762165298,
  19298250018296453272277890825869354524455968081175474282777126169995084727839), by
  show EdOn _ _ _
  unfold EdOn; decide +kernel⟩

/-- **C34, refuted for ed_on_bn254**: a result different from `1 • G` is accepted. -/
theorem C34_edBn254_counterexample : MsmAlias edBn254 bnPt.1 :=
  alias_of edBn254 edBn254G rfl rfl bnPt (by decide +kernel) (by decide +kernel) (by decide +kernel) (by decide +kernel)
    (smul_ne bnPt 254 _ (by decide +kernel) (by decide +kernel)) (by decide +kernel)

/-- the generator of `ark_ed_on_bls12_377` -/
def ed377Pt : edBls377G.Pt := ⟨(4497879464030519973909970603271755437257548612157028181994697785683032656389,
  4357141146396347889246900916607623952598927460421559113092863576544024487809), by
  show EdOn _ _ _
  unfold EdOn; decide +kernel⟩

/-- **C34, refuted for ed_on_bls12_377.** -/
theorem C34_edBls377_counterexample : MsmAlias edBls377 ed377Pt.1 :=
  alias_of edBls377 edBls377G rfl rfl ed377Pt (by decide +kernel) (by decide +kernel) (by decide +kernel)
    (by decide +kernel) (smul_ne ed377Pt 254 _ (by decide +kernel) (by decide +kernel)) (by decide +kernel)

/-- the generator of `ark_ed_on_bls12_381` -/
def ed381Pt : edBls381G.Pt := ⟨(8076246640662884909881801758704306714034609987455869804520522091855516602923,
  13262374693698910701929044844600465831413122818447359594527400194675274060458), by
  show EdOn _ _ _
  unfold EdOn; decide +kernel⟩

/-- **C34, refuted for ed_on_bls12_381.** -/
theorem C34_edBls381_counterexample : MsmAlias edBls381 ed381Pt.1 :=
  alias_of edBls381 edBls381G rfl rfl ed381Pt (by decide +kernel) (by decide +kernel) (by decide +kernel)
    (by decide +kernel) (smul_ne ed381Pt 255 _ (by decide +kernel) (by decide +kernel)) (by decide +kernel)

/-- **C34, refuted for Bandersnatch.** -/
theorem C34_bandersnatch_counterexample : MsmAlias bandersnatch bandPt.1 :=
  alias_of bandersnatch bandersnatchG rfl rfl bandPt (by decide +kernel) (by decide +kernel) (by decide +kernel)
    (by decide +kernel) (smul_ne bandPt 255 _ (by decide +kernel) (by decide +kernel)) (by decide +kernel)

/-! ## Examples -/

/-- `demo13` with lookups: the point `(4, 4)` in `2, 3`, the point `(1, 0)` in `4, 5`, 1 in `7`, 5 in `8` -/
def demoU13 : Circ 13 := { Circ.new 13 (some 2) with numVars := 9, witness := [0, 1, 4, 4, 1, 0, 0, 1, 5] }

theorem demoU13_wf : WF demoU13 := by
  refine ⟨rfl, rfl, by decide, ⟨[], rfl⟩, ?_, by simp [demoU13, Circ.new], by simp [demoU13, Circ.new]⟩
  intro r hr
  simp [demoU13, Circ.new] at hr
  rcases hr with rfl | rfl <;> simp [demoU13]

/-- `(1, 0)` in the group -/
def Q13 : E13.Pt := ⟨(1, 0), by show EdOn _ _ _; unfold EdOn; decide⟩

theorem sum13 : (5 • P13 + 1 • Q13).1 = (9, 4) := by
  rw [one_nsmul, E13.add_val, five13]
  exact ((addEqs_iff (K := K13) (by unfold EdDef edZ K13 Q13; decide)).1 (by unfold AddEqs edZ K13 Q13; decide)).symm

theorem isMsm13 {w : ℕ → ZMod 13} (hw : ∀ i, i < 9 → w i = demoU13.val i) {S : ZMod 13 × ZMod 13}
    (h : IsMsm E13 w [(2, 3), (4, 5)] ([8, 7].map fun s => (w s).val) S) : S = (9, 4) := by
  obtain ⟨Ps, h1, h2⟩ := h
  match Ps, h1, h2 with
  | [], h1, _ => simp at h1
  | [_], h1, _ => simp at h1
  | P :: Q :: [], h1, h2 =>
    simp only [List.map_cons, List.map_nil, List.cons.injEq, and_true] at h1
    have hP : P = P13 := Subtype.ext (h1.1.symm.trans (by unfold pt; rw [hw 2 (by omega), hw 3 (by omega)]; decide))
    have hQ : Q = Q13 := Subtype.ext (h1.2.symm.trans (by unfold pt; rw [hw 4 (by omega), hw 5 (by omega)]; decide))
    rw [h2, hP, hQ, ← sum13]
    simp only [List.map_cons, List.map_nil, List.zipWith_cons_cons, List.zipWith_nil_left, List.sum_cons, List.sum_nil,
      add_zero, hw 8 (by omega), hw 7 (by omega)]
    rfl
  | _ :: _ :: _ :: _, h1, _ => simp at h1

theorem mem13 : ∀ b ∈ [((2, 3) : ℕ × ℕ), (4, 5)], E13.mem (pt demoU13.val b) := by
  intro b hb
  have : b = (2, 3) ∨ b = (4, 5) := by simpa using hb
  rcases this with rfl | rfl <;> (show EdOn _ _ _; unfold EdOn; decide)

-- with lookups and 3 bits: 5 (4, 4) + 1 (1, 0) = (9, 4), and no other result
example : ∃ v c', msmWithLength K13 [(2, 3), (4, 5)] [8, 7] 3 demoU13 = .ok (v, c') ∧ checkSat c' [] = .ok () ∧
    pt c'.val v = (9, 4) ∧
    ∀ w, Sat c' [] w → (∀ i, i < 9 → w i = demoU13.val i) → pt w v = (9, 4) := by
  have h := C34_lookup_sound K13 E13 rfl rfl [(2, 3), (4, 5)] [8, 7] 3 (by decide) rfl (by simp) (by decide) (by decide)
  have hd : LDom [(2, 3), (4, 5)] [8, 7] demoU13 := ⟨⟨by decide, by decide⟩, by decide⟩
  have ht : TablesOK demoU13 := ⟨(tablesOK_new (p := 13) (some 2)).rows⟩
  have hck : checkSat demoU13 [] = .ok () := by decide +kernel
  obtain ⟨h1, h2⟩ := h.honest demoU13 demoU13_wf ht (by decide) hd [] hck mem13
  obtain ⟨v, c', hm, hs⟩ := h1.2 (by decide)
  refine ⟨v, c', hm, hs, isMsm13 (fun _ _ => rfl) (h2 v c' hm hs), ?_⟩
  intro w hw ha
  refine isMsm13 ha (h.sound demoU13_wf ht (by decide) hd hm hw ?_).2
  intro b hb
  rw [pt_congr hd.1 ha hb]
  exact mem13 b hb

-- without lookups
example : Returns (msmWithLength K13 [(2, 3), (4, 5)] [8, 7] 3) (9, 4) := by
  refine returns_of (C34_no_lookup (by decide) K13 E13 rfl rfl [(2, 3), (4, 5)] [8, 7] 3 (by decide) (by decide +kernel)
    rfl (by simp)) ⟨⟨by decide, by decide⟩, rfl⟩ ⟨mem13, by decide⟩ ?_
  intro v w hw h
  refine isMsm13 hw (h.2 ?_)
  intro b hb
  rw [pt_congr (c := demoU13) (vs := []) (Ps := [(2, 3), (4, 5)]) ⟨by simp, by decide⟩ hw hb]
  exact mem13 b hb

end Verif.Props.Msm
