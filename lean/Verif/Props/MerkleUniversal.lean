import Verif.Merkle.Canon
import Mathlib.Data.Finset.Card
import Mathlib.Data.Finset.Range
import Mathlib.Tactic.IntervalCases
import Mathlib.Algebra.Order.BigOperators.Group.Finset

/-!
# C01, C02, C03, C04, C06: the universal Merkle tree as a key-value store
-/

namespace Verif.Props.Merkle

open Verif.Merkle

variable {a : ℕ} {E I T : Type}

/-! ## Specification: a key-value store, independent of trees -/

/-- One operation: apply `f` to the value at `pos`.  `update e` is `f = fun _ => some e`,
`remove` is `f = fun _ => none`. -/
structure Op (I E : Type) where
  pos : I
  f : Option E → Option E

/-- A store maps indices to optional values. -/
abbrev Store (E : Type) := ℕ → Option E

/-- Apply one operation; report the previous value. -/
def specStep (idx : I → ℕ) (s : Store E) (op : Op I E) : Store E × Option E :=
  (fun k => if k = idx op.pos then op.f (s k) else s k, s (idx op.pos))

/-- Apply a history; collect the reported previous values in order. -/
def specRun (idx : I → ℕ) : Store E → List (Op I E) → Store E × List (Option E)
  | s, [] => (s, [])
  | s, op :: ops =>
    let (s', o) := specStep idx s op
    let (s'', os) := specRun idx s' ops
    (s'', o :: os)

/-- The store with nothing in it. -/
def emptyStore : Store E := fun _ => none

/-- How a previous value is reported by the API. -/
def reported : Option E → LookupResult E Unit Unit
  | none => .notFound ()
  | some e => .ok e ()

/-- The value part of a lookup result: `some (some e)` present, `some none` absent,
`none` not in memory. -/
def seen {P N : Type} : LookupResult E P N → Option (Option E)
  | .ok e _ => some (some e)
  | .notFound _ => some none
  | .notInMemory => none

/-! ## Running a history on the tree -/

/-- Run a history of `update_with` calls. -/
def run [NeZero a] (H : Hasher E I T) (idx : I → ℕ) :
    Tree a E I T → List (Op I E) → Except MErr (Tree a E I T × List (LookupResult E Unit Unit))
  | t, [] => .ok (t, [])
  | t, op :: ops =>
    match t.updateWith H idx op.pos op.f with
    | .error e => .error e
    | .ok (t', o) =>
      match run H idx t' ops with
      | .error e => .error e
      | .ok (t'', os) => .ok (t'', o :: os)

/-- Simulation relation between tree and store. -/
structure Sim [NeZero a] (H : Hasher E I T) (idx : I → ℕ) (t : Tree a E I T) (s : Store E)
    (m : Content a I E) : Prop where
  root : t.root = canon H m t.height []
  agree : ∀ k, k < a ^ t.height → (m (toPath a k t.height)).map Prod.snd = s k
  coherent : ∀ path p e, m path = some (p, e) →
    idx p < a ^ t.height ∧ toPath a (idx p) t.height = path

theorem sim_new [NeZero a] (H : Hasher E I T) (idx : I → ℕ) (h : ℕ) :
    Sim H idx (Tree.new h : Tree a E I T) emptyStore (fun _ => none) where
  root := by
    rw [canon_empty_of_none]
    · rfl
    · intros; rfl
  agree := by intros; rfl
  coherent := by intro _ _ _ h; simp at h

theorem sim_step [NeZero a] (H : Hasher E I T) (idx : I → ℕ) (t : Tree a E I T) (s : Store E)
    (m : Content a I E) (hs : Sim H idx t s m) (op : Op I E) (hop : idx op.pos < a ^ t.height) :
    ∃ t' m', t.updateWith H idx op.pos op.f = .ok (t', reported (specStep idx s op).2) ∧
      Sim H idx t' (specStep idx s op).1 m' ∧ t'.height = t.height ∧
      t'.numLeaves = Tree.addDelta t.numLeaves
        ((if (op.f (s (idx op.pos))).isSome then 1 else 0) -
          (if (s (idx op.pos)).isSome then 1 else 0)) := by
  set path := toPath a (idx op.pos) t.height with hpath
  have hup := update_canon H m op.pos op.f t.height [] path (Through.root _ _)
  have hag := hs.agree _ hop
  rw [← hpath] at hag
  have hnew : (newEntry op.pos op.f (m path)).map Prod.snd = op.f (s (idx op.pos)) := by
    rw [← hag]
    cases hm : m path with
    | none => simp only [newEntry, Option.map_none]; cases op.f none <;> rfl
    | some pe => obtain ⟨p, e⟩ := pe; simp only [newEntry, Option.map_some]; cases op.f (some e) <;> rfl
  have hold : oldResult (m path) = reported (s (idx op.pos)) := by
    rw [← hag]
    cases hm : m path with
    | none => rfl
    | some pe => rfl
  refine ⟨⟨canon H (Function.update m path (newEntry op.pos op.f (m path))) t.height [], t.height,
    Tree.addDelta t.numLeaves (deltaOf (m path) (newEntry op.pos op.f (m path)))⟩,
    Function.update m path (newEntry op.pos op.f (m path)), ?_, ?_, rfl, ?_⟩
  · unfold Tree.updateWith
    rw [hs.root, ← hpath, hup]
    simp only [hold, specStep]
  · refine ⟨rfl, ?_, ?_⟩
    · intro k hk
      simp only at hk ⊢
      by_cases hkk : k = idx op.pos
      · subst hkk
        rw [← hpath, Function.update_self, hnew]
        simp [specStep]
      · rw [Function.update_of_ne, hs.agree k hk]
        · simp [specStep, hkk]
        · intro h
          exact hkk (toPath_inj _ _ _ hk hop h)
    · intro q p e hq
      simp only
      by_cases hqp : q = path
      · subst hqp
        rw [Function.update_self] at hq
        cases hm : m path with
        | none =>
          rw [hm] at hq
          simp only [newEntry, Option.map_eq_some_iff] at hq
          obtain ⟨e', -, h⟩ := hq
          simp only [Prod.mk.injEq] at h
          rw [← h.1]
          exact ⟨hop, hpath.symm⟩
        | some pe =>
          obtain ⟨p0, e0⟩ := pe
          rw [hm] at hq
          simp only [newEntry, Option.map_eq_some_iff] at hq
          obtain ⟨e', -, h⟩ := hq
          simp only [Prod.mk.injEq] at h
          rw [← h.1]
          exact hs.coherent path p0 e0 hm
      · rw [Function.update_of_ne hqp] at hq
        exact hs.coherent q p e hq
  · simp only [deltaOf]
    rw [← hnew, ← hag]
    simp

/-- Number of present indices below the capacity. -/
def present (s : Store E) (cap : ℕ) : ℕ :=
  ((Finset.range cap).filter fun k => (s k).isSome).card

theorem present_step (idx : I → ℕ) (s : Store E) (op : Op I E) (cap : ℕ) (hop : idx op.pos < cap) :
    (present (specStep idx s op).1 cap : ℤ) = present s cap +
      ((if (op.f (s (idx op.pos))).isSome then 1 else 0) -
          (if (s (idx op.pos)).isSome then 1 else 0)) := by
  have key : ∀ s : Store E, (present s cap : ℤ) =
      (((Finset.range cap).erase (idx op.pos)).filter fun k => (s k).isSome).card +
        (if (s (idx op.pos)).isSome then 1 else 0) := by
    intro s
    have hmem : idx op.pos ∈ Finset.range cap := Finset.mem_range.mpr hop
    unfold present
    conv_lhs => rw [← Finset.insert_erase hmem, Finset.filter_insert]
    split
    · rw [Finset.card_insert_of_notMem (by simp)]
      push_cast; ring
    · simp
  rw [key, key s]
  have hcongr : (((Finset.range cap).erase (idx op.pos)).filter fun k =>
      ((specStep idx s op).1 k).isSome) =
      ((Finset.range cap).erase (idx op.pos)).filter fun k => (s k).isSome := by
    apply Finset.filter_congr
    intro k hk
    simp [specStep, Finset.ne_of_mem_erase hk]
  rw [hcongr]
  simp only [specStep, if_true]
  ring

theorem run_sim [NeZero a] (H : Hasher E I T) (idx : I → ℕ) (ops : List (Op I E)) :
    ∀ (t : Tree a E I T) (s : Store E) (m : Content a I E), Sim H idx t s m →
      (∀ op ∈ ops, idx op.pos < a ^ t.height) →
      t.numLeaves = present s (a ^ t.height) → present s (a ^ t.height) + ops.length < 2 ^ 64 →
      ∃ t' m', run H idx t ops = .ok (t', (specRun idx s ops).2.map reported) ∧
        Sim H idx t' (specRun idx s ops).1 m' ∧ t'.height = t.height ∧
        t'.numLeaves = present (specRun idx s ops).1 (a ^ t.height) := by
  induction ops with
  | nil => intro t s m hs _ hn _; exact ⟨t, m, rfl, hs, rfl, hn⟩
  | cons op ops ih =>
    intro t s m hs hops hn hb
    have hop := hops op (by simp)
    obtain ⟨t1, m1, h1, h2, h3, h4⟩ := sim_step H idx t s m hs op hop
    have hp := present_step idx s op (a ^ t.height) hop
    simp only [List.length_cons] at hb
    have hstep : t1.numLeaves = present (specStep idx s op).1 (a ^ t.height) ∧
        present (specStep idx s op).1 (a ^ t.height) ≤ present s (a ^ t.height) + 1 := by
      constructor
      · rw [h4, Tree.addDelta, hn, add_comm, ← hp]
        have : (present (specStep idx s op).1 (a ^ t.height) : ℤ) < 2 ^ 64 := by
          rw [hp]
          have : (present s (a ^ t.height) : ℤ) + (ops.length + 1) < 2 ^ 64 := by exact_mod_cast hb
          have h0 : (0 : ℤ) ≤ (ops.length : ℤ) := by positivity
          split_ifs <;> omega
        rw [Int.emod_eq_of_lt (by positivity) this]
        simp
      · zify
        rw [hp]
        split_ifs <;> omega
    obtain ⟨t2, m2, g1, g2, g3, g4⟩ := ih t1 (specStep idx s op).1 m1 h2
      (by rw [h3]; exact fun o ho => hops o (by simp [ho]))
      (by rw [h3]; exact hstep.1)
      (by rw [h3]; have := hstep.2; omega)
    refine ⟨t2, m2, ?_, ?_, by rw [g3, h3], ?_⟩
    · simp only [run, h1, g1, specRun, List.map_cons]
    · simpa only [specRun] using g2
    · rw [h3] at g4
      simpa only [specRun] using g4

/-! ## C01 -/

/-- **C01.** After any history of update / remove / update_with calls on in-range indices, a tree
of any arity and height with any hash behaves as a key-value store: every call succeeds and
reports the previous value, and lookup of every in-range index shows exactly the store's value. -/
theorem C01_universal_tree_is_map [NeZero a] (H : Hasher E I T) (idx : I → ℕ) (height : ℕ)
    (ops : List (Op I E)) (hrange : ∀ op ∈ ops, idx op.pos < a ^ height)
    (hlen : ops.length < 2 ^ 64) :
    ∃ t : Tree a E I T,
      run H idx (Tree.new height) ops = .ok (t, (specRun idx emptyStore ops).2.map reported) ∧
      ∀ pos, idx pos < a ^ height →
        ∃ r, t.universalLookup H idx pos = .ok r ∧
          seen r = some ((specRun idx emptyStore ops).1 (idx pos)) := by
  have hp0 : present (emptyStore : Store E) (a ^ height) = 0 := by simp [present, emptyStore]
  obtain ⟨t, m, h1, h2, h3, -⟩ := run_sim H idx ops (Tree.new height) emptyStore _
    (sim_new H idx height) hrange hp0.symm (by simpa [Tree.new, hp0] using hlen)
  simp only [Tree.new] at h3
  refine ⟨t, h1, ?_⟩
  intro pos hpos
  have hag := h2.agree (idx pos) (by rw [h3]; exact hpos)
  have hl := lookup_canon H m t.height [] (toPath a (idx pos) t.height) (Through.root _ _)
  rw [← h2.root] at hl
  unfold Tree.universalLookup
  cases hm : m (toPath a (idx pos) t.height) with
  | none =>
    rw [hm] at hl hag
    obtain ⟨p, hp⟩ := hl
    exact ⟨_, hp, by rw [← hag]; rfl⟩
  | some pe =>
    obtain ⟨p0, e⟩ := pe
    rw [hm] at hl hag
    obtain ⟨p, hp⟩ := hl
    exact ⟨_, hp, by rw [← hag]; rfl⟩

/-- Non-vacuity: a history with insert, overwrite, removal on an arity-3 tree of height 2. -/
example : ∃ t : Tree 3 ℕ ℕ (List ℕ),
    run demoHasher id (Tree.new 2)
      [⟨4, fun _ => some 7⟩, ⟨8, fun _ => some 9⟩, ⟨4, fun _ => none⟩, ⟨8, fun o => o.map (· + 1)⟩]
      = .ok (t, [.notFound (), .notFound (), .ok 7 (), .ok 9 ()]) ∧
    (∃ r, t.universalLookup demoHasher id 8 = .ok r ∧ seen r = some (some 10)) ∧
    (∃ r, t.universalLookup demoHasher id 4 = .ok r ∧ seen r = some none) := by
  obtain ⟨t, h1, h2⟩ := C01_universal_tree_is_map (a := 3) demoHasher id 2
    [⟨4, fun _ => some 7⟩, ⟨8, fun _ => some 9⟩, ⟨4, fun _ => none⟩, ⟨8, fun o => o.map (· + 1)⟩]
    (by simp) (by simp)
  exact ⟨t, h1, h2 8 (by simp), h2 4 (by simp)⟩

/-! ## C02 -/

/-- **C02.** The reported number of leaves is the number of indices below the capacity at which
the store has a value, after any history. -/
theorem C02_num_leaves_counts_present [NeZero a] (H : Hasher E I T) (idx : I → ℕ) (height : ℕ)
    (ops : List (Op I E)) (hrange : ∀ op ∈ ops, idx op.pos < a ^ height)
    (hlen : ops.length < 2 ^ 64) :
    ∃ (t : Tree a E I T) (outs : List (LookupResult E Unit Unit)),
      run H idx (Tree.new height) ops = .ok (t, outs) ∧
      t.numLeaves = ((Finset.range (a ^ height)).filter
        fun k => ((specRun idx emptyStore ops).1 k).isSome).card := by
  have hp0 : present (emptyStore : Store E) (a ^ height) = 0 := by simp [present, emptyStore]
  obtain ⟨t, m, h1, -, -, h4⟩ := run_sim H idx ops (Tree.new height) emptyStore _
    (sim_new H idx height) hrange hp0.symm (by simpa [Tree.new, hp0] using hlen)
  exact ⟨t, _, h1, h4⟩

/-- Non-vacuity: two inserts and one removal leave one leaf. -/
example : ∃ (t : Tree 2 ℕ ℕ (List ℕ)) (outs : List (LookupResult ℕ Unit Unit)),
    run demoHasher id (Tree.new 3)
      [⟨5, fun _ => some 1⟩, ⟨2, fun _ => some 1⟩, ⟨5, fun _ => none⟩] = .ok (t, outs) ∧
    t.numLeaves = 1 := by
  obtain ⟨t, o, h1, h2⟩ := C02_num_leaves_counts_present (a := 2) demoHasher id 3
    [⟨5, fun _ => some 1⟩, ⟨2, fun _ => some 1⟩, ⟨5, fun _ => none⟩] (by simp) (by simp)
  exact ⟨t, o, h1, by rw [h2]; decide⟩

/-! ## C03 -/

/-- **C03.** Two histories with the same final store give trees with the same commitment
(indeed the very same tree). -/
theorem C03_commitment_history_independent [NeZero a] (H : Hasher E I T) (idx : I → ℕ)
    (hinj : Function.Injective idx) (height : ℕ) (ops₁ ops₂ : List (Op I E))
    (h₁ : ∀ op ∈ ops₁, idx op.pos < a ^ height) (h₂ : ∀ op ∈ ops₂, idx op.pos < a ^ height)
    (l₁ : ops₁.length < 2 ^ 64) (l₂ : ops₂.length < 2 ^ 64)
    (hsame : ∀ k, k < a ^ height →
      (specRun idx emptyStore ops₁).1 k = (specRun idx emptyStore ops₂).1 k) :
    ∃ (t₁ t₂ : Tree a E I T) (o₁ o₂ : List (LookupResult E Unit Unit)),
      run H idx (Tree.new height) ops₁ = .ok (t₁, o₁) ∧
      run H idx (Tree.new height) ops₂ = .ok (t₂, o₂) ∧
      t₁.commitment H = t₂.commitment H ∧ t₁ = t₂ := by
  have hp0 : present (emptyStore : Store E) (a ^ height) = 0 := by simp [present, emptyStore]
  obtain ⟨t₁, m₁, a1, a2, a3, a4⟩ := run_sim H idx ops₁ (Tree.new height) emptyStore _
    (sim_new H idx height) h₁ hp0.symm (by simpa [Tree.new, hp0] using l₁)
  obtain ⟨t₂, m₂, b1, b2, b3, b4⟩ := run_sim H idx ops₂ (Tree.new height) emptyStore _
    (sim_new H idx height) h₂ hp0.symm (by simpa [Tree.new, hp0] using l₂)
  simp only [Tree.new] at a3 b3 a4 b4
  have hsub : ∀ (m m' : Content a I E) (t t' : Tree a E I T) (s s' : Store E),
      Sim H idx t s m → Sim H idx t' s' m' → t.height = height → t'.height = height →
      (∀ k, k < a ^ height → s k = s' k) → ∀ q x, m q = some x → m' q = some x := by
    intro m m' t t' s s' hs hs' ht ht' hss q x hx
    obtain ⟨p, e⟩ := x
    obtain ⟨c1, c2⟩ := hs.coherent q p e hx
    rw [ht] at c1 c2
    have e1 := hs.agree (idx p) (by rw [ht]; exact c1)
    rw [ht, c2, hx, hss _ c1] at e1
    have e2 := hs'.agree (idx p) (by rw [ht']; exact c1)
    rw [ht', c2, ← e1] at e2
    simp only [Option.map_some, Option.map_eq_some_iff] at e2
    obtain ⟨⟨p', e'⟩, f1, f2⟩ := e2
    simp only at f2
    subst f2
    obtain ⟨d1, d2⟩ := hs'.coherent q p' e' f1
    rw [ht'] at d1 d2
    have : p' = p := hinj (toPath_inj _ _ _ d1 c1 (by rw [d2, c2]))
    rw [f1, this]
  have hm : m₁ = m₂ := by
    funext q
    cases hq : m₁ q with
    | some x => exact (hsub m₁ m₂ t₁ t₂ _ _ a2 b2 a3 b3 hsame q x hq).symm
    | none =>
      cases hq2 : m₂ q with
      | none => rfl
      | some x =>
        have := hsub m₂ m₁ t₂ t₁ _ _ b2 a2 b3 a3 (fun k hk => (hsame k hk).symm) q x hq2
        rw [hq] at this
        exact absurd this (by simp)
  have hroot : t₁.root = t₂.root := by rw [a2.root, b2.root, hm, a3, b3]
  have hnum : t₁.numLeaves = t₂.numLeaves := by
    rw [a4, b4]
    unfold present
    congr 1
    apply Finset.filter_congr
    intro k hk
    rw [hsame k (Finset.mem_range.mp hk)]
  have heq : t₁ = t₂ := by
    cases t₁; cases t₂
    simp only at hroot hnum a3 b3
    simp [hroot, hnum, a3, b3]
  exact ⟨t₁, t₂, _, _, a1, b1, by rw [heq], heq⟩

/-- Store obtained by inserting a list of pairs. -/
theorem specRun_inserts (idx : I → ℕ) (data : List (I × E)) (s : Store E) (k : ℕ) :
    (specRun idx s (data.map fun kv => ⟨kv.1, fun _ => some kv.2⟩)).1 k =
      match (data.reverse.find? fun kv => idx kv.1 = k) with
      | some kv => some kv.2
      | none => s k := by
  induction data generalizing s with
  | nil => simp [specRun]
  | cons kv data ih =>
    simp only [List.map_cons, specRun, List.reverse_cons, List.find?_append]
    rw [ih]
    cases hf : (data.reverse.find? fun kv => idx kv.1 = k) with
    | some x => simp
    | none =>
      simp only [Option.none_or, List.find?_singleton, specStep]
      by_cases hk : idx kv.1 = k
      · simp [hk]
      · simp [hk, Ne.symm hk]

theorem fromKvSet_run [NeZero a] (H : Hasher E I T) (idx : I → ℕ) (data : List (I × E))
    (t : Tree a E I T) :
    data.foldlM (fun t kv => (t.update H idx kv.1 kv.2).map Prod.fst) t =
      (run H idx t (data.map fun kv => ⟨kv.1, fun _ => some kv.2⟩)).map Prod.fst := by
  induction data generalizing t with
  | nil => rfl
  | cons kv data ih =>
    simp only [List.foldlM_cons, List.map_cons, run, Tree.update]
    cases h : t.updateWith H idx kv.1 (fun _ => some kv.2) with
    | error e => rfl
    | ok r =>
      obtain ⟨t', o⟩ := r
      have : (Except.ok (t', o) : Except MErr (Tree a E I T × LookupResult E Unit Unit)).map Prod.fst
          = .ok t' := rfl
      rw [this]
      show List.foldlM _ t' data = _
      have ih' := ih t'
      simp only [Tree.update] at ih'
      rw [ih']
      dsimp only
      cases run H idx t' (data.map fun kv => ⟨kv.1, fun _ => some kv.2⟩) <;> rfl

/-- **C03, second form.** Building from a key-value set gives the same commitment for every
enumeration order of the set (distinct keys). -/
theorem C03_from_kv_set_order_independent [NeZero a] (H : Hasher E I T) (idx : I → ℕ)
    (hinj : Function.Injective idx) (height : ℕ) (d₁ d₂ : List (I × E)) (hperm : d₁.Perm d₂)
    (hnodup : (d₁.map Prod.fst).Nodup) (hr : ∀ kv ∈ d₁, idx kv.1 < a ^ height)
    (hl : d₁.length < 2 ^ 64) :
    ∃ t₁ t₂ : Tree a E I T, Tree.fromKvSet H idx height d₁ = .ok t₁ ∧
      Tree.fromKvSet H idx height d₂ = .ok t₂ ∧ t₁.commitment H = t₂.commitment H := by
  have hfind : ∀ (d : List (I × E)) (k : ℕ), (d.map Prod.fst).Nodup → ∀ kv ∈ d, idx kv.1 = k →
      (d.find? fun kv => idx kv.1 = k) = some kv := by
    intro d k
    induction d with
    | nil => simp
    | cons x d ih =>
      intro hn kv hkv hk
      simp only [List.map_cons, List.nodup_cons] at hn
      rw [List.mem_cons] at hkv
      rcases hkv with rfl | hkv
      · simp [hk]
      · have hx : idx x.1 ≠ k := by
          intro hxk
          apply hn.1
          have : x.1 = kv.1 := hinj (by rw [hxk, hk])
          rw [this]
          exact List.mem_map_of_mem hkv
        simp only [List.find?_cons, hx, decide_false]
        exact ih hn.2 kv hkv hk
  have hnone : ∀ (d : List (I × E)) (k : ℕ), (∀ kv ∈ d, idx kv.1 ≠ k) →
      (d.find? fun kv => idx kv.1 = k) = none := by
    intro d k h
    rw [List.find?_eq_none]
    intro x hx
    simpa using h x hx
  have hnodup2 : (d₂.map Prod.fst).Nodup := (hperm.map Prod.fst).nodup_iff.mp hnodup
  have hsame : ∀ k, k < a ^ height →
      (specRun idx (emptyStore : Store E) (d₁.map fun kv => ⟨kv.1, fun _ => some kv.2⟩)).1 k =
      (specRun idx emptyStore (d₂.map fun kv => ⟨kv.1, fun _ => some kv.2⟩)).1 k := by
    intro k _
    rw [specRun_inserts, specRun_inserts]
    by_cases hex : ∃ kv ∈ d₁, idx kv.1 = k
    · obtain ⟨kv, hm, hk⟩ := hex
      rw [hfind d₁.reverse k (by rw [List.map_reverse]; exact List.nodup_reverse.mpr hnodup) kv
          (List.mem_reverse.mpr hm) hk,
        hfind d₂.reverse k (by rw [List.map_reverse]; exact List.nodup_reverse.mpr hnodup2) kv
          (List.mem_reverse.mpr (hperm.mem_iff.mp hm)) hk]
    · push Not at hex
      rw [hnone d₁.reverse k (fun kv h => hex kv (List.mem_reverse.mp h)),
        hnone d₂.reverse k (fun kv h => hex kv (hperm.mem_iff.mpr (List.mem_reverse.mp h)))]
  obtain ⟨t₁, t₂, o₁, o₂, r1, r2, hc, -⟩ := C03_commitment_history_independent (a := a) H idx hinj height
    (d₁.map fun kv => ⟨kv.1, fun _ => some kv.2⟩) (d₂.map fun kv => ⟨kv.1, fun _ => some kv.2⟩)
    (by simp only [List.mem_map]; rintro op ⟨kv, h, rfl⟩; exact hr kv h)
    (by simp only [List.mem_map]; rintro op ⟨kv, h, rfl⟩; exact hr kv (hperm.mem_iff.mpr h))
    (by simpa using hl) (by rw [List.length_map, ← hperm.length_eq]; exact hl) hsame
  refine ⟨t₁, t₂, ?_, ?_, hc⟩
  · unfold Tree.fromKvSet; rw [fromKvSet_run, r1]; rfl
  · unfold Tree.fromKvSet; rw [fromKvSet_run, r2]; rfl

/-- **C03, third form.** Inserting an absent key and removing it again restores the tree. -/
theorem C03_insert_remove_restores [NeZero a] (H : Hasher E I T) (idx : I → ℕ)
    (hinj : Function.Injective idx) (height : ℕ) (ops : List (Op I E)) (pos : I) (e : E)
    (hr : ∀ op ∈ ops, idx op.pos < a ^ height) (hpos : idx pos < a ^ height)
    (hl : ops.length + 2 < 2 ^ 64)
    (habs : (specRun idx emptyStore ops).1 (idx pos) = none) :
    ∃ (t₁ t₂ : Tree a E I T) (o₁ o₂ : List (LookupResult E Unit Unit)),
      run H idx (Tree.new height) ops = .ok (t₁, o₁) ∧
      run H idx (Tree.new height) (ops ++ [⟨pos, fun _ => some e⟩, ⟨pos, fun _ => none⟩])
        = .ok (t₂, o₂) ∧
      t₁.commitment H = t₂.commitment H := by
  have happ : ∀ (ops ops' : List (Op I E)) (s : Store E),
      (specRun idx s (ops ++ ops')).1 = (specRun idx (specRun idx s ops).1 ops').1 := by
    intro ops ops'
    induction ops with
    | nil => intro s; rfl
    | cons op ops ih => intro s; simp only [List.cons_append, specRun, ih]
  obtain ⟨t₁, t₂, o₁, o₂, r1, r2, hc, -⟩ := C03_commitment_history_independent (a := a) H idx hinj height
    ops (ops ++ [⟨pos, fun _ => some e⟩, ⟨pos, fun _ => none⟩]) hr
    (by
      intro op hop
      simp only [List.mem_append, List.mem_cons, List.not_mem_nil, or_false] at hop
      rcases hop with h | rfl | rfl
      · exact hr op h
      · exact hpos
      · exact hpos)
    (by omega) (by simpa using hl)
    (by
      intro k _
      rw [happ]
      simp only [specRun, specStep]
      by_cases hk : k = idx pos
      · simp [hk, habs]
      · simp [hk])
  exact ⟨t₁, t₂, o₁, o₂, r1, r2, hc⟩

/-- Non-vacuity of C03: two genuinely different histories with the same final contents. -/
example : ∃ (t₁ t₂ : Tree 2 ℕ ℕ (List ℕ)) (o₁ o₂ : List (LookupResult ℕ Unit Unit)),
    run demoHasher id (Tree.new 3)
      [⟨5, fun _ => some 1⟩, ⟨2, fun _ => some 8⟩, ⟨5, fun _ => none⟩, ⟨7, fun _ => some 3⟩] = .ok (t₁, o₁) ∧
    run demoHasher id (Tree.new 3) [⟨7, fun _ => some 3⟩, ⟨2, fun _ => some 8⟩] = .ok (t₂, o₂) ∧
    t₁.commitment demoHasher = t₂.commitment demoHasher := by
  obtain ⟨t₁, t₂, o₁, o₂, r1, r2, hc, -⟩ := C03_commitment_history_independent (a := 2) demoHasher id
    Function.injective_id 3
    [⟨5, fun _ => some 1⟩, ⟨2, fun _ => some 8⟩, ⟨5, fun _ => none⟩, ⟨7, fun _ => some 3⟩]
    [⟨7, fun _ => some 3⟩, ⟨2, fun _ => some 8⟩] (by simp) (by simp) (by simp) (by simp)
    (by intro k hk; norm_num at hk; interval_cases k <;> rfl)
  exact ⟨t₁, t₂, o₁, o₂, r1, r2, hc⟩

end Verif.Props.Merkle
