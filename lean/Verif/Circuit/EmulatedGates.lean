import Verif.Circuit.EmulatedNum

/-! # The emulated arithmetic gates: independence of the hints, specifications of the public functions -/

set_option linter.unusedSectionVars false

namespace Verif.Circuit

open Finset Verif.Limbs

variable {p : ℕ} {α β : Type}

/-! ## Independence of the hints -/

theorem witnesses_ok {vs : List ℕ} : ∀ {c c' : Circ p} {xs : List (ZMod p)},
    witnesses vs c = .ok (xs, c') → c' = c ∧ xs.length = vs.length := by
  induction vs with
  | nil => intro c c' xs h; cases h; exact ⟨rfl, rfl⟩
  | cons v vs ih =>
    intro c c' xs h
    unfold witnesses at h
    obtain ⟨x, c1, h1, h2⟩ := bind_ok h
    obtain ⟨ys, c2, h3, h4⟩ := bind_ok h2
    unfold witness at h1
    split at h1
    · cases h1
    cases h1
    obtain ⟨rfl, hl⟩ := ih h3
    cases h4
    exact ⟨rfl, by simp [hl]⟩

theorem Rel.witnesses_bind' {vs vs' : List ℕ} {f f' : List (ZMod p) → Build p β}
    (hf : ∀ x y, x.length = vs.length → y.length = vs'.length → Rel (f x) (f' y)) :
    Rel (witnesses vs >>= f) (witnesses vs' >>= f') := by
  intro c d hs v1 c' v2 d' h1 h2
  obtain ⟨x, c1, a1, a2⟩ := bind_ok h1
  obtain ⟨y, d1, b1, b2⟩ := bind_ok h2
  obtain ⟨rfl, hx⟩ := witnesses_ok a1
  obtain ⟨rfl, hy⟩ := witnesses_ok b1
  exact hf x y hx hy _ _ hs _ _ _ _ a2 b2

theorem Rel.witnesses_bindL {vs : List ℕ} {f : List (ZMod p) → Build p β} {m : Build p β}
    (hf : ∀ x, x.length = vs.length → Rel (f x) m) : Rel (witnesses vs >>= f) m := by
  intro c d hs v1 c' v2 d' h1 h2
  obtain ⟨x, c1, a1, a2⟩ := bind_ok h1
  obtain ⟨rfl, hx⟩ := witnesses_ok a1
  exact hf x hx _ _ hs _ _ _ _ a2 h2

theorem Rel.checkVars_bindL {vs : List ℕ} {f : Unit → Build p β} {m : Build p β}
    (hf : Rel (f ()) m) : Rel (Verif.Circuit.checkVars vs >>= f) m := by
  intro c d hs v1 c' v2 d' h1 h2
  obtain ⟨x, c1, a1, a2⟩ := bind_ok h1
  obtain ⟨rfl, _⟩ := checkVars_ok a1
  exact hf _ _ hs _ _ _ _ a2 h2

theorem liftE_ok {x : Except CErr α} {c c' : Circ p} {v : α} (h : (liftE x : Build p α) c = .ok (v, c')) :
    c' = c ∧ x = .ok v := by
  cases x with
  | error e => cases h
  | ok v => cases h; exact ⟨rfl, rfl⟩

theorem Rel.liftE_bindL {x : Except CErr α} {f : α → Build p β} {m : Build p β}
    (hf : ∀ v, x = .ok v → Rel (f v) m) : Rel (Verif.Circuit.liftE x >>= f) m := by
  intro c d hs v1 c' v2 d' h1 h2
  obtain ⟨v, c1, a1, a2⟩ := bind_ok h1
  obtain ⟨rfl, hx⟩ := liftE_ok a1
  exact hf v hx _ _ hs _ _ _ _ a2 h2

theorem Rel.liftE_bind2 {x y : Except CErr α} {f f' : α → Build p β}
    (hf : ∀ u v, Rel (f u) (f' v)) : Rel (Verif.Circuit.liftE x >>= f) (Verif.Circuit.liftE y >>= f') := by
  intro c d hs v1 c' v2 d' h1 h2
  obtain ⟨u, c1, a1, a2⟩ := bind_ok h1
  obtain ⟨v, d1, b1, b2⟩ := bind_ok h2
  obtain ⟨rfl, _⟩ := liftE_ok a1
  obtain ⟨rfl, _⟩ := liftE_ok b1
  exact hf u v _ _ hs _ _ _ _ a2 b2

theorem Rel.emulatedWitness_bind {E : Emu} {a a' : List ℕ} {f f' : ℕ → Build p β}
    (hf : ∀ u v, Rel (f u) (f' v)) : Rel (emulatedWitness E a >>= f) (emulatedWitness E a' >>= f') := by
  intro c d hs v1 c' v2 d' h1 h2
  obtain ⟨u, c1, a1, a2⟩ := bind_ok h1
  obtain ⟨v, d1, b1, b2⟩ := bind_ok h2
  obtain ⟨x, c2, a3, a4⟩ := bind_ok a1
  obtain ⟨y, d2, b3, b4⟩ := bind_ok b1
  obtain ⟨rfl, _⟩ := witnesses_ok a3
  obtain ⟨rfl, _⟩ := witnesses_ok b3
  obtain ⟨rfl, _⟩ := liftE_ok a4
  obtain ⟨rfl, _⟩ := liftE_ok b4
  exact hf u v _ _ hs _ _ _ _ a2 b2

theorem Rel.emulatedWitness_bindL {E : Emu} {a : List ℕ} {f : ℕ → Build p β} {m : Build p β}
    (hf : ∀ u, Rel (f u) m) : Rel (emulatedWitness E a >>= f) m := by
  intro c d hs v1 c' v2 d' h1 h2
  obtain ⟨u, c1, a1, a2⟩ := bind_ok h1
  obtain ⟨x, c2, a3, a4⟩ := bind_ok a1
  obtain ⟨rfl, _⟩ := witnesses_ok a3
  obtain ⟨rfl, _⟩ := liftE_ok a4
  exact hf u _ _ hs _ _ _ _ a2 h2

theorem enforceInRangeAll_rel (b : ℕ) (vs : List ℕ) :
    Rel (enforceInRangeAll b vs : Build p Unit) (enforceInRangeAll b vs) := by
  induction vs with
  | nil => exact Rel.pure ()
  | cons v vs ih => exact Rel.bind (enforceInRange_rel v b) (fun _ => ih)

theorem createEmulated_rel (E : Emu) (x y : ℕ) :
    Rel (createEmulated E x : Build p (List ℕ)) (createEmulated E y) := by
  unfold createEmulated
  refine Rel.bind (createVars_rel _ _ (by simp [fromEmulated, toLimbs_length])) (fun vs => ?_)
  exact Rel.bind (enforceInRangeAll_rel _ _) (fun _ => Rel.pure _)

theorem reduceStack_rel (fuel : ℕ) : ∀ s : List (ℕ × ZMod p), Rel (reduceStack fuel s) (reduceStack fuel s) := by
  induction fuel with
  | zero => intro s; exact Rel.pure _
  | succ fuel ih =>
    intro s
    unfold reduceStack
    split
    · exact Rel.bind (lc_rel _ _ _ _ _ _ _ _) (fun t => ih _)
    · exact Rel.pure _

theorem stackLc_rel (s : List (ℕ × ZMod p)) (y : ℕ) : Rel (stackLc s y) (stackLc s y) := by
  unfold stackLc
  exact Rel.bind (reduceStack_rel _ _) (fun s => lcGate_rel _ _ _ _ _ _ _ _ _)

theorem modNativeLoop_rel (a : List ℕ) (r : ZMod p) (m : ℕ) : ∀ i cur res,
    Rel (modNativeLoop a r m i cur res) (modNativeLoop a r m i cur res) := by
  induction m with
  | zero => intro i cur res; exact Rel.pure _
  | succ m ih =>
    intro i cur res
    exact Rel.bind (lc_rel _ _ _ _ _ _ _ _) (fun t => ih _ _ _)

theorem modToNative_rel (E : Emu) (a : List ℕ) : Rel (modToNative E a : Build p ℕ) (modToNative E a) := by
  unfold modToNative
  refine Rel.bind (lc_rel _ _ _ _ _ _ _ _) (fun t => ?_)
  split
  · exact modNativeLoop_rel _ _ _ _ _ _
  · exact Rel.pure _

theorem mulPairs_rel (a b : List ℕ) (i : ℕ) (js : List ℕ) : ∀ s : List (ℕ × ZMod p),
    Rel (mulPairs a b i js s) (mulPairs a b i js s) := by
  induction js with
  | nil => intro s; exact Rel.pure _
  | cons j js ih => intro s; exact Rel.bind (mulAdd_rel _ _ _ _ _ _) (fun t => ih _)

theorem mulLast_rel (a b : List ℕ) (i : ℕ) (s : List (ℕ × ZMod p)) :
    Rel (mulLast a b i s) (mulLast a b i s) := by
  unfold mulLast
  split
  · split
    · exact Rel.bind (genQuadPoly_rel _ _ _ _ _ _ _ _ _ _ _) (fun t => Rel.pure _)
    · exact Rel.failL _ _
  · exact Rel.pure _

theorem mulLoop_rel (E : Emu) (a b y k : List ℕ) (neg : List (ZMod p)) (xs : List (ZMod p)) :
    ∀ (ys : List (ZMod p)) (i carry : ℕ), xs.length = ys.length →
    Rel (mulLoop E a b y k neg xs i carry) (mulLoop E a b y k neg ys i carry) := by
  induction xs with
  | nil =>
    intro ys i carry h
    rw [List.length_nil, eq_comm, List.length_eq_zero_iff] at h
    subst h
    exact Rel.pure _
  | cons x xs ih =>
    intro ys i carry h
    cases ys with
    | nil => simp at h
    | cons z ys =>
      unfold mulLoop
      refine Rel.bind (Rel.createVariable _ _) (fun t => ?_)
      refine Rel.bind (enforceInRange_rel _ _) (fun _ => ?_)
      refine Rel.bind (mulPairs_rel _ _ _ _ _) (fun s => ?_)
      refine Rel.bind (mulLast_rel _ _ _ _) (fun s => ?_)
      exact Rel.bind (stackLc_rel _ _) (fun _ => ih _ _ _ (by simpa using h))

theorem mulGateWith_rel (E : Emu) (a b y : List ℕ) (neg : List (ZMod p)) (k k' : ℕ)
    (cs cs' : List (ZMod p)) (hl : cs.length = cs'.length) :
    Rel (mulGateWith E a b y neg k cs) (mulGateWith E a b y neg k' cs') := by
  unfold mulGateWith
  refine Rel.bind (createEmulated_rel _ _ _) (fun kv => ?_)
  cases cs with
  | nil => exact Rel.failL _ _
  | cons x xs =>
    cases cs' with
    | nil => exact Rel.failR _ _
    | cons x' xs' =>
      refine Rel.bind (Rel.createVariable _ _) (fun t => ?_)
      refine Rel.bind (enforceInRange_rel _ _) (fun _ => ?_)
      refine Rel.bind (quadPolyGateB_rel _ _ _ _ _ _ _ _ _ _ _ _ _) (fun _ => ?_)
      refine Rel.bind (mulLoop_rel _ _ _ _ _ _ _ _ _ _ (by simpa using hl)) (fun _ => ?_)
      refine Rel.bind (modToNative_rel _ _) (fun _ => ?_)
      refine Rel.bind (modToNative_rel _ _) (fun _ => ?_)
      refine Rel.bind (modToNative_rel _ _) (fun _ => ?_)
      refine Rel.bind (modToNative_rel _ _) (fun _ => ?_)
      exact quadPolyGateB_rel _ _ _ _ _ _ _ _ _ _ _ _ _

theorem mulConstLoop_rel (E : Emu) (a y k : List ℕ) (b neg : List (ZMod p)) (xs : List (ZMod p)) :
    ∀ (ys : List (ZMod p)) (i carry : ℕ), xs.length = ys.length →
    Rel (mulConstLoop E a y k b neg xs i carry) (mulConstLoop E a y k b neg ys i carry) := by
  induction xs with
  | nil =>
    intro ys i carry h
    rw [List.length_nil, eq_comm, List.length_eq_zero_iff] at h
    subst h
    exact Rel.pure _
  | cons x xs ih =>
    intro ys i carry h
    cases ys with
    | nil => simp at h
    | cons z ys =>
      unfold mulConstLoop
      refine Rel.bind (Rel.createVariable _ _) (fun t => ?_)
      refine Rel.bind (enforceInRange_rel _ _) (fun _ => ?_)
      exact Rel.bind (stackLc_rel _ _) (fun _ => ih _ _ _ (by simpa using h))

theorem mulConstGateWith_rel (E : Emu) (a : List ℕ) (valB : ℕ) (y : List ℕ) (neg : List (ZMod p))
    (k k' : ℕ) (cs cs' : List (ZMod p)) (hl : cs.length = cs'.length) :
    Rel (mulConstGateWith E a valB y neg k cs) (mulConstGateWith E a valB y neg k' cs') := by
  unfold mulConstGateWith
  refine Rel.bind (createEmulated_rel _ _ _) (fun kv => ?_)
  cases cs with
  | nil => exact Rel.failL _ _
  | cons x xs =>
    cases cs' with
    | nil => exact Rel.failR _ _
    | cons x' xs' =>
      refine Rel.bind (Rel.createVariable _ _) (fun t => ?_)
      refine Rel.bind (enforceInRange_rel _ _) (fun _ => ?_)
      refine Rel.bind (lcGate_rel _ _ _ _ _ _ _ _ _) (fun _ => ?_)
      refine Rel.bind (mulConstLoop_rel _ _ _ _ _ _ _ _ _ _ (by simpa using hl)) (fun _ => ?_)
      refine Rel.bind (modToNative_rel _ _) (fun _ => ?_)
      refine Rel.bind (modToNative_rel _ _) (fun _ => ?_)
      refine Rel.bind (modToNative_rel _ _) (fun _ => ?_)
      exact lcGate_rel _ _ _ _ _ _ _ _ _

theorem addLoop_rel (E : Emu) (hs : List (ZMod p)) : ∀ (hs' : List (ZMod p)) (as bs ss : List ℕ) (cr : ℕ),
    hs.length = hs'.length → Rel (addLoop E hs as bs ss cr) (addLoop E hs' as bs ss cr) := by
  induction hs with
  | nil =>
    intro hs' as bs ss cr h
    rw [List.length_nil, eq_comm, List.length_eq_zero_iff] at h
    subst h
    unfold addLoop
    exact Rel.pure _
  | cons x xs ih =>
    intro hs' as bs ss cr h
    rcases hs' with _ | ⟨z, zs⟩
    · simp at h
    rcases as with _ | ⟨a, as⟩
    · unfold addLoop; exact Rel.pure _
    rcases bs with _ | ⟨b, bs⟩
    · unfold addLoop; exact Rel.pure _
    rcases ss with _ | ⟨s, ss⟩
    · unfold addLoop; exact Rel.pure _
    unfold addLoop addLimb
    refine Rel.bind ?_ (fun t => ih _ _ _ _ _ (by simpa using h))
    refine Rel.bind (Rel.createVariable _ _) (fun t => ?_)
    refine Rel.bind (enforceBool_rel _) (fun _ => ?_)
    refine Rel.bind (lcGate_rel _ _ _ _ _ _ _ _ _) (fun _ => ?_)
    exact Rel.bind (enforceInRange_rel _ _) (fun _ => Rel.pure _)

theorem addConstLoop_rel (E : Emu) (hs : List (ZMod p)) : ∀ (hs' : List (ZMod p)) (as : List ℕ)
    (bs : List (ZMod p)) (ss : List ℕ) (cr : ℕ),
    hs.length = hs'.length → Rel (addConstLoop E hs as bs ss cr) (addConstLoop E hs' as bs ss cr) := by
  induction hs with
  | nil =>
    intro hs' as bs ss cr h
    rw [List.length_nil, eq_comm, List.length_eq_zero_iff] at h
    subst h
    unfold addConstLoop
    exact Rel.pure _
  | cons x xs ih =>
    intro hs' as bs ss cr h
    rcases hs' with _ | ⟨z, zs⟩
    · simp at h
    rcases as with _ | ⟨a, as⟩
    · unfold addConstLoop; exact Rel.pure _
    rcases bs with _ | ⟨b, bs⟩
    · unfold addConstLoop; exact Rel.pure _
    rcases ss with _ | ⟨s, ss⟩
    · unfold addConstLoop; exact Rel.pure _
    unfold addConstLoop
    refine Rel.bind (Rel.createVariable _ _) (fun t => ?_)
    refine Rel.bind (enforceBool_rel _) (fun _ => ?_)
    refine Rel.bind (lcGate_rel _ _ _ _ _ _ _ _ _) (fun _ => ?_)
    exact Rel.bind (enforceInRange_rel _ _) (fun _ => ih _ _ _ _ _ (by simpa using h))

theorem subLoop_rel (E : Emu) (k : ℕ) (hs : List (ZMod p)) : ∀ (hs' : List (ZMod p)) (ms : List (ZMod p))
    (cs ss : List ℕ) (cr : ℕ),
    hs.length = hs'.length → Rel (subLoop E k hs ms cs ss cr) (subLoop E k hs' ms cs ss cr) := by
  induction hs with
  | nil =>
    intro hs' as bs ss cr h
    rw [List.length_nil, eq_comm, List.length_eq_zero_iff] at h
    subst h
    unfold subLoop
    exact Rel.pure _
  | cons x xs ih =>
    intro hs' as bs ss cr h
    rcases hs' with _ | ⟨z, zs⟩
    · simp at h
    rcases as with _ | ⟨a, as⟩
    · unfold subLoop; exact Rel.pure _
    rcases bs with _ | ⟨b, bs⟩
    · unfold subLoop; exact Rel.pure _
    rcases ss with _ | ⟨s, ss⟩
    · unfold subLoop; exact Rel.pure _
    unfold subLoop
    refine Rel.bind (Rel.createVariable _ _) (fun t => ?_)
    refine Rel.bind (enforceBool_rel _) (fun _ => ?_)
    refine Rel.bind (lcGate_rel _ _ _ _ _ _ _ _ _) (fun _ => ?_)
    exact ih _ _ _ _ _ (by simpa using h)

theorem addGateWith_rel (E : Emu) (a b y : List ℕ) (k k' : Bool) (s s' : ℕ) (h1 h1' h2 h2' : List (ZMod p))
    (e1 : h1.length = h1'.length) (e2 : h2.length = h2'.length) :
    Rel (addGateWith E a b y k s h1 h2) (addGateWith E a b y k' s' h1' h2') := by
  unfold addGateWith
  refine Rel.bind (createBooleanVariable_rel _ _) (fun kv => ?_)
  refine Rel.bind (createVars_rel _ _ (by simp [toLimbs_length])) (fun sv => ?_)
  exact Rel.bind (addLoop_rel _ _ _ _ _ _ _ e1) (fun _ => subLoop_rel _ _ _ _ _ _ _ _ e2)

theorem addConstGateWith_rel (E : Emu) (a : List ℕ) (b : ℕ) (y : List ℕ) (k k' : Bool) (s s' : ℕ)
    (h1 h1' h2 h2' : List (ZMod p)) (e1 : h1.length = h1'.length) (e2 : h2.length = h2'.length) :
    Rel (addConstGateWith E a b y k s h1 h2) (addConstGateWith E a b y k' s' h1' h2') := by
  unfold addConstGateWith
  refine Rel.bind (createBooleanVariable_rel _ _) (fun kv => ?_)
  refine Rel.bind (createVars_rel _ _ (by simp [toLimbs_length])) (fun sv => ?_)
  exact Rel.bind (addConstLoop_rel _ _ _ _ _ _ _ e1) (fun _ => subLoop_rel _ _ _ _ _ _ _ _ e2)

theorem mulCarries_length (E : Emu) (a b k neg e : List (ZMod p)) (m : ℕ) : ∀ i x,
    (mulCarries E a b k neg e m i x).length = m := by
  induction m with
  | zero => intro i x; rfl
  | succ m ih => intro i x; simp [mulCarries, ih]

theorem mulHints_length (E : Emu) (neg : List (ZMod p)) (x y : ℕ) : (mulHints E neg x y).length = E.n :=
  mulCarries_length _ _ _ _ _ _ _ _ _

theorem emulatedMulGate_rel (E : Emu) (a b y : List ℕ) :
    Rel (emulatedMulGate E a b y : Build p Unit) (emulatedMulGate E a b y) := by
  unfold emulatedMulGate
  refine Rel.bind (Rel.checkVars _) (fun _ => ?_)
  refine Rel.bind (Rel.checkVars _) (fun _ => ?_)
  refine Rel.bind (Rel.checkVars _) (fun _ => ?_)
  refine Rel.emulatedWitness_bind (fun _ _ => ?_)
  refine Rel.emulatedWitness_bind (fun _ _ => ?_)
  refine Rel.bind (Rel.liftE _) (fun neg => ?_)
  exact mulGateWith_rel _ _ _ _ _ _ _ _ _ (by rw [mulHints_length, mulHints_length])

theorem emulatedMulGate_rel' {E : Emu} (h : E.OK p) (a b y : List ℕ) (k : ℕ) (cs : List (ZMod p))
    (hl : cs.length = E.n) :
    Rel (emulatedMulGate E a b y : Build p Unit) (mulGateWith E a b y (negLimbs p E) k cs) := by
  unfold emulatedMulGate
  refine Rel.checkVars_bindL (Rel.checkVars_bindL (Rel.checkVars_bindL ?_))
  refine Rel.emulatedWitness_bindL (fun _ => Rel.emulatedWitness_bindL (fun _ => ?_))
  refine Rel.liftE_bindL (fun neg hneg => ?_)
  rw [negModulus_ok h] at hneg
  cases hneg
  exact mulGateWith_rel _ _ _ _ _ _ _ _ _ (by rw [mulHints_length, hl])

theorem emulatedMulConstantGate_rel (E : Emu) (a : List ℕ) (b : ℕ) (y : List ℕ) :
    Rel (emulatedMulConstantGate E a b y : Build p Unit) (emulatedMulConstantGate E a b y) := by
  unfold emulatedMulConstantGate
  refine Rel.bind (Rel.checkVars _) (fun _ => ?_)
  refine Rel.bind (Rel.checkVars _) (fun _ => ?_)
  refine Rel.emulatedWitness_bind (fun _ _ => ?_)
  refine Rel.bind (Rel.liftE _) (fun neg => ?_)
  exact mulConstGateWith_rel _ _ _ _ _ _ _ _ _ (by rw [mulHints_length, mulHints_length])

theorem emulatedMulConstantGate_rel' {E : Emu} (h : E.OK p) (a : List ℕ) (b : ℕ) (y : List ℕ) (k : ℕ)
    (cs : List (ZMod p)) (hl : cs.length = E.n) :
    Rel (emulatedMulConstantGate E a b y : Build p Unit) (mulConstGateWith E a b y (negLimbs p E) k cs) := by
  unfold emulatedMulConstantGate
  refine Rel.checkVars_bindL (Rel.checkVars_bindL ?_)
  refine Rel.emulatedWitness_bindL (fun _ => ?_)
  refine Rel.liftE_bindL (fun neg hneg => ?_)
  rw [negModulus_ok h] at hneg
  cases hneg
  exact mulConstGateWith_rel _ _ _ _ _ _ _ _ _ (by rw [mulHints_length, hl])

theorem addHints1_length {E : Emu} {x y : List (ZMod p)} {n : ℕ} (hx : x.length = n) (hy : y.length = n) :
    (addHints1 E x y).length = n := by simp [addHints1, hx, hy]

theorem addHints2_length {E : Emu} {k : Bool} {y : List (ZMod p)} (hy : y.length = E.n) :
    (addHints2 E k y).length = E.n := by simp [addHints2, hy, toLimbs_length]

theorem emulatedAddGate_rel (E : Emu) (a b y : List ℕ) :
    Rel (emulatedAddGate E a b y : Build p Unit) (emulatedAddGate E a b y) := by
  unfold emulatedAddGate
  refine Rel.bind (Rel.checkVars _) (fun _ => ?_)
  refine Rel.bind (Rel.checkVars _) (fun _ => ?_)
  refine Rel.bind (Rel.checkVars _) (fun _ => ?_)
  refine Rel.emulatedWitness_bind (fun _ _ => ?_)
  refine Rel.emulatedWitness_bind (fun _ _ => ?_)
  refine Rel.witnesses_bind' (fun _ _ h1 h2 => ?_)
  refine Rel.witnesses_bind' (fun _ _ h3 h4 => ?_)
  refine Rel.witnesses_bind' (fun _ _ h5 h6 => ?_)
  exact addGateWith_rel _ _ _ _ _ _ _ _ _ _ _ _ (by simp [addHints1, h1, h2, h3, h4])
    (by simp [addHints2, h5, h6])

theorem emulatedAddGate_rel' (E : Emu) (a b y : List ℕ) (k : Bool) (s : ℕ) (h1 h2 : List (ZMod p))
    (hla : a.length = E.n) (hlb : b.length = E.n) (hly : y.length = E.n)
    (e1 : h1.length = E.n) (e2 : h2.length = E.n) :
    Rel (emulatedAddGate E a b y : Build p Unit) (addGateWith E a b y k s h1 h2) := by
  unfold emulatedAddGate
  refine Rel.checkVars_bindL (Rel.checkVars_bindL (Rel.checkVars_bindL ?_))
  refine Rel.emulatedWitness_bindL (fun _ => Rel.emulatedWitness_bindL (fun _ => ?_))
  refine Rel.witnesses_bindL (fun _ h3 => Rel.witnesses_bindL (fun _ h4 => Rel.witnesses_bindL (fun _ h5 => ?_)))
  exact addGateWith_rel _ _ _ _ _ _ _ _ _ _ _ _ (by simp [addHints1, h3, h4, hla, hlb, e1])
    (by simp [addHints2, h5, hly, e2, toLimbs_length])

theorem emulatedAddConstantGate_rel (E : Emu) (a : List ℕ) (b : ℕ) (y : List ℕ) :
    Rel (emulatedAddConstantGate E a b y : Build p Unit) (emulatedAddConstantGate E a b y) := by
  unfold emulatedAddConstantGate
  refine Rel.bind (Rel.checkVars _) (fun _ => ?_)
  refine Rel.bind (Rel.checkVars _) (fun _ => ?_)
  refine Rel.emulatedWitness_bind (fun _ _ => ?_)
  refine Rel.witnesses_bind' (fun _ _ h1 h2 => ?_)
  refine Rel.witnesses_bind' (fun _ _ h5 h6 => ?_)
  exact addConstGateWith_rel _ _ _ _ _ _ _ _ _ _ _ _ (by simp [addHints1, h1, h2])
    (by simp [addHints2, h5, h6])

theorem emulatedAddConstantGate_rel' (E : Emu) (a : List ℕ) (b : ℕ) (y : List ℕ) (k : Bool) (s : ℕ)
    (h1 h2 : List (ZMod p)) (hla : a.length = E.n) (hly : y.length = E.n)
    (e1 : h1.length = E.n) (e2 : h2.length = E.n) :
    Rel (emulatedAddConstantGate E a b y : Build p Unit) (addConstGateWith E a b y k s h1 h2) := by
  unfold emulatedAddConstantGate
  refine Rel.checkVars_bindL (Rel.checkVars_bindL ?_)
  refine Rel.emulatedWitness_bindL (fun _ => ?_)
  refine Rel.witnesses_bindL (fun _ h3 => Rel.witnesses_bindL (fun _ h5 => ?_))
  exact addConstGateWith_rel _ _ _ _ _ _ _ _ _ _ _ _ (by simp [addHints1, h3, hla, e1, toLimbs_length])
    (by simp [addHints2, h5, hly, e2, toLimbs_length])

end Verif.Circuit
