import Verif.Spec.Store

/-! Helper lemmas for the store of cached arrays. -/

namespace Verif.Store

theorem dictSet_lookup (d : Dict) (k k' : Key) (r : ℕ) :
    (dictSet d k r).lookup k' = if k' = k then some r else d.lookup k' := by
  have hmap : ∀ d : Dict, (d.map (fun p => if p.1 = k then (k, r) else p)).lookup k' =
      if k' = k then (if d.any (fun p => p.1 = k) then some r else none) else d.lookup k' := by
    intro d
    induction d with
    | nil => simp
    | cons p d ih =>
      obtain ⟨a, b⟩ := p
      by_cases h : a = k
      · subst h
        by_cases h' : k' = a
        · subst h'; simp
        · have hb : (k' == a) = false := by simpa using h'
          simp only [List.map_cons, if_true, List.lookup_cons, hb, ih, if_neg h']
      · by_cases h' : k' = a
        · subst h'; simp [h, List.lookup_cons]
        · have hb : (k' == a) = false := by simpa using h'
          rw [List.map_cons, if_neg h, List.lookup_cons, hb, ih, List.any_cons]
          simp only [h, decide_false, Bool.false_or, List.lookup_cons, hb]
  have happ : ∀ d : Dict, d.any (fun p => p.1 = k) = false →
      (d ++ [(k, r)]).lookup k' = if k' = k then some r else d.lookup k' := by
    intro d hd
    induction d with
    | nil =>
      by_cases h : k' = k
      · simp [h]
      · have hb : (k' == k) = false := by simpa using h
        simp [h, List.lookup_cons, hb]
    | cons p d ih =>
      obtain ⟨a, b⟩ := p
      simp only [List.any_cons, Bool.or_eq_false_iff, decide_eq_false_iff_not] at hd
      by_cases h' : k' = a
      · subst h'; simp [hd.1, List.lookup_cons]
      · have hb : (k' == a) = false := by simpa using h'
        simp only [List.cons_append, List.lookup_cons, hb, ih hd.2]
  unfold dictSet
  split
  · next h => rw [hmap, if_pos h]
  · next h => exact happ d (Bool.eq_false_iff.2 h)

/-- The entry of a key. -/
def St.entry (s : St) (g : Grp) (k : Key) : Option ℕ := (s.dicts g).lookup k

theorem store_entry (s : St) (g g' : Grp) (k k' : Key) (a : Arr) :
    (s.store g k a).entry g' k' = if g' = g ∧ k' = k then some s.heap.length else s.entry g' k' := by
  unfold St.entry St.store
  by_cases h : g' = g
  · subst h
    simp only [if_true, true_and]
    exact dictSet_lookup _ _ _ _
  · simp [h]

theorem store_read (s : St) (g : Grp) (k : Key) (a : Arr) (r : ℕ) :
    (s.store g k a).read r = if r = s.heap.length then a else s.read r := by
  unfold St.read St.store
  simp only [List.getElem?_append]
  split
  · next h => rw [if_neg h.ne]
  · next h =>
    by_cases h' : r = s.heap.length
    · subst h'; simp
    · rw [if_neg h', List.getElem?_eq_none (by simp; omega), List.getElem?_eq_none (by omega)]

/-- What is known to be the value of each array. -/
abbrev Truth := Grp → Key → Option Arr

/-- A cached array is right: the value itself, or a placeholder with the value on disk. -/
def EntryOk (T : Truth) (s : St) (g : Grp) (k : Key) (r : ℕ) : Prop :=
  ∃ a, T g k = some a ∧ 1 < a.length ∧
    (s.read r = a ∨ ((s.read r).length ≤ 1 ∧ ∃ f, s.disk = some f ∧ (f g).lookup (path k) = some a))

/-- The invariant of the store. -/
def Inv (T : Truth) (good : Grp → Key → Prop) (s : St) : Prop :=
  ∀ g k r, s.entry g k = some r → r < s.heap.length ∧ (good g k → EntryOk T s g k r)

/-- The value is in memory. -/
def Loaded (T : Truth) (s : St) (g : Grp) (k : Key) : Prop :=
  ∃ r a, s.entry g k = some r ∧ T g k = some a ∧ 1 < a.length ∧ s.read r = a

/-- If the key is there at all, its value is in memory. -/
def LoadedIf (T : Truth) (s : St) (g : Grp) (k : Key) : Prop := (s.entry g k).isSome → Loaded T s g k

/-- Dictionary keys are unique. -/
def Wf (s : St) : Prop := ∀ g, ((s.dicts g).map Prod.fst).Nodup

/-- A later state: no array modified, same disk, keys kept, loaded good arrays stay loaded. -/
structure Ext (T : Truth) (good : Grp → Key → Prop) (s s' : St) : Prop where
  heap : s.heap <+: s'.heap
  disk : s'.disk = s.disk
  keys : ∀ g k, (s.entry g k).isSome → (s'.entry g k).isSome
  loaded : ∀ g k, good g k → LoadedIf T s g k → LoadedIf T s' g k
  wf : Wf s → Wf s'

theorem dictSet_nodup {d : Dict} (h : (d.map Prod.fst).Nodup) (k : Key) (r : ℕ) :
    ((dictSet d k r).map Prod.fst).Nodup := by
  unfold dictSet
  split
  · have : (d.map (fun p => if p.1 = k then (k, r) else p)).map Prod.fst = d.map Prod.fst := by
      rw [List.map_map]
      apply List.map_congr_left
      intro p _
      simp only [Function.comp]
      split
      · next h => exact h.symm
      · rfl
    rw [this]; exact h
  · next hk =>
    rw [List.map_append, List.nodup_append]
    refine ⟨h, by simp, ?_⟩
    intro a ha b hb
    simp only [List.map_cons, List.map_nil, List.mem_singleton] at hb
    subst hb
    rintro rfl
    obtain ⟨p, hp, rfl⟩ := List.mem_map.1 ha
    exact hk (List.any_eq_true.2 ⟨p, hp, by simp⟩)

theorem store_wf {s : St} (h : Wf s) (g : Grp) (k : Key) (a : Arr) : Wf (s.store g k a) := by
  intro g'
  unfold St.store
  by_cases hg : g' = g
  · subst hg
    simp only [if_true]
    exact dictSet_nodup (h g') k _
  · simp only [if_neg hg]
    exact h g'

theorem Ext.refl {T good} (s : St) : Ext T good s s := ⟨List.prefix_rfl, rfl, fun _ _ h => h, fun _ _ _ h => h, id⟩

theorem Ext.trans {T good} {s s' s'' : St} (h : Ext T good s s') (h' : Ext T good s' s'') : Ext T good s s'' :=
  ⟨h.heap.trans h'.heap, h'.disk.trans h.disk, fun g k e => h'.keys g k (h.keys g k e),
    fun g k hg e => h'.loaded g k hg (h.loaded g k hg e), fun w => h'.wf (h.wf w)⟩

theorem read_prefix {s s' : St} (h : s.heap <+: s'.heap) {r : ℕ} (hr : r < s.heap.length) :
    s'.read r = s.read r := by
  obtain ⟨t, ht⟩ := h
  unfold St.read
  rw [← ht, List.getElem?_append_left hr]

variable {T : Truth} {good : Grp → Key → Prop}

theorem store_loaded {s : St} {g : Grp} {k : Key} {a : Arr} (ha : T g k = some a) (hl : 1 < a.length) :
    Loaded T (s.store g k a) g k :=
  ⟨s.heap.length, a, by rw [store_entry, if_pos ⟨rfl, rfl⟩], ha, hl, by rw [store_read, if_pos rfl]⟩

theorem store_inv {s : St} (h : Inv T good s) {g : Grp} {k : Key} {a : Arr}
    (ha : good g k → T g k = some a ∧ 1 < a.length) : Inv T good (s.store g k a) := by
  intro g' k' r hr
  rw [store_entry] at hr
  have hlen : (s.store g k a).heap.length = s.heap.length + 1 := by simp [St.store]
  by_cases hk : g' = g ∧ k' = k
  · rw [if_pos hk] at hr
    obtain rfl := Option.some.inj hr
    obtain ⟨rfl, rfl⟩ := hk
    refine ⟨by omega, fun hg => ⟨a, (ha hg).1, (ha hg).2, .inl ?_⟩⟩
    rw [store_read, if_pos rfl]
  · rw [if_neg hk] at hr
    obtain ⟨h1, h2⟩ := h g' k' r hr
    refine ⟨by omega, fun hg => ?_⟩
    obtain ⟨b, b1, b2, b3⟩ := h2 hg
    refine ⟨b, b1, b2, ?_⟩
    rw [store_read, if_neg h1.ne]
    exact b3

theorem store_ext {s : St} (h : Inv T good s) {g : Grp} {k : Key} {a : Arr}
    (ha : good g k → T g k = some a ∧ 1 < a.length) : Ext T good s (s.store g k a) where
  heap := ⟨[a], rfl⟩
  disk := rfl
  keys := by
    intro g' k' hk
    rw [store_entry]
    split
    · rfl
    · exact hk
  loaded := by
    intro g' k' hg hl hs
    by_cases hk : g' = g ∧ k' = k
    · obtain ⟨rfl, rfl⟩ := hk
      exact store_loaded (ha hg).1 (ha hg).2
    · rw [store_entry, if_neg hk] at hs
      obtain ⟨r, b, h1, h2, h3, h4⟩ := hl hs
      exact ⟨r, b, by rw [store_entry, if_neg hk]; exact h1, h2, h3, by
        rw [store_read, if_neg (h g' k' r h1).1.ne]; exact h4⟩
  wf := fun w => store_wf w g k a

/-- `_really_load_array`. -/
theorem reallyLoad_spec {s : St} (h : Inv T good s) (g : Grp) (k : Key) :
    Inv T good (reallyLoad g k s).2 ∧ Ext T good s (reallyLoad g k s).2 ∧
    (s.entry g k = none → reallyLoad g k s = (.error .keyError, s)) ∧
    (good g k → (s.entry g k).isSome →
      (reallyLoad g k s).1 = .ok () ∧ Loaded T (reallyLoad g k s).2 g k) := by
  unfold reallyLoad
  cases hr : (s.dicts g).lookup k with
  | none =>
    refine ⟨h, Ext.refl _, fun _ => rfl, fun _ hs => ?_⟩
    unfold St.entry at hs; rw [hr] at hs; cases hs
  | some r =>
    dsimp only
    have hn : s.entry g k ≠ none := by unfold St.entry; rw [hr]; simp
    by_cases hl : 1 < (s.read r).length
    · rw [if_pos hl]
      refine ⟨h, Ext.refl _, fun hs => absurd hs hn, fun hg _ => ⟨rfl, ?_⟩⟩
      obtain ⟨a, a1, a2, a3⟩ := (h g k r hr).2 hg
      rcases a3 with a3 | ⟨a3, -⟩
      · exact ⟨r, a, hr, a1, a2, a3⟩
      · omega
    · rw [if_neg hl]
      by_cases hg : good g k
      · obtain ⟨a, a1, a2, a3⟩ := (h g k r hr).2 hg
        rcases a3 with a3 | ⟨-, f, f1, f2⟩
        · rw [a3] at hl; omega
        · rw [f1]
          dsimp only
          rw [f2]
          dsimp only
          exact ⟨store_inv h (fun _ => ⟨a1, a2⟩), store_ext h (fun _ => ⟨a1, a2⟩), fun hs => absurd hs hn,
            fun _ _ => ⟨rfl, store_loaded a1 a2⟩⟩
      · cases s.disk with
        | none => exact ⟨h, Ext.refl _, fun hs => absurd hs hn, fun hg' => absurd hg' hg⟩
        | some f =>
          dsimp only
          cases (f g).lookup (path k) with
          | none => exact ⟨h, Ext.refl _, fun hs => absurd hs hn, fun hg' => absurd hg' hg⟩
          | some a =>
            exact ⟨store_inv h (fun hg' => absurd hg' hg), store_ext h (fun hg' => absurd hg' hg),
              fun hs => absurd hs hn, fun hg' => absurd hg' hg⟩

/-- A computation that gives the true value or, when not all data is available, an error. -/
def CompOk (T : Truth) (good : Grp → Key → Prop) (full : Prop) (expected : Py Arr) (comp : St → Py Arr × St) : Prop :=
  ∀ s, Inv T good s → Inv T good (comp s).2 ∧ Ext T good s (comp s).2 ∧
    ((comp s).1 = expected ∨ (¬full ∧ ∃ e, (comp s).1 = .error e))

/-- The value of a result of a cached query. -/
def valueOf (x : Py ℕ × St) : Py Arr :=
  match x with
  | (.ok r, s) => .ok (s.read r)
  | (.error e, _) => .error e

theorem cached_spec {s : St} (h : Inv T good s) (g : Grp) (k : Key) (force : Bool) {comp : St → Py Arr × St}
    {full : Prop} {expected : Py Arr} (hc : CompOk T good full expected comp)
    (hT : good g k → ∀ a, T g k = some a ↔ expected = .ok a)
    (hs : good g k → ∀ a, expected = .ok a → 1 < a.length) :
    Inv T good (cached g k force comp s).2 ∧ Ext T good s (cached g k force comp s).2 ∧
    (good g k → valueOf (cached g k force comp s) = expected ∨
      (¬full ∧ ∃ e, valueOf (cached g k force comp s) = .error e)) ∧
    (good g k → force = false → (s.entry g k).isSome →
      valueOf (cached g k force comp s) = expected) ∧
    (good g k → force = false → LoadedIf T (cached g k force comp s).2 g k) ∧
    (∀ a, valueOf (cached g k force comp s) = .ok a → ((cached g k force comp s).2.entry g k).isSome) := by
  have hre : ∀ s1, Inv T good s1 → Ext T good s s1 →
      let x : Py ℕ × St := match comp s1 with
        | (.ok a, s2) => (.ok s2.heap.length, s2.store g k a)
        | (.error e, s2) => (.error e, s2)
      Inv T good x.2 ∧ Ext T good s x.2 ∧
      (good g k → valueOf x = expected ∨ (¬full ∧ ∃ e, valueOf x = .error e)) ∧
      (good g k → s.entry g k = none → LoadedIf T x.2 g k) ∧
      (∀ a, valueOf x = .ok a → (x.2.entry g k).isSome) := by
    intro s1 hi he
    obtain ⟨c1, c2, c3⟩ := hc s1 hi
    revert c1 c2 c3
    rcases comp s1 with ⟨ra, s2⟩
    intro c1 c2 c3
    cases ra with
    | error e =>
      refine ⟨c1, he.trans c2, fun _ => ?_, fun hg hn => (he.trans c2).loaded g k hg (fun hs => by
        rw [hn] at hs; cases hs), fun a ha => by cases ha⟩
      rcases c3 with c3 | ⟨c3, -⟩
      · left; exact c3
      · right; exact ⟨c3, e, rfl⟩
    | ok a =>
      have hex : expected = .ok a := by
        rcases c3 with c3 | ⟨-, e, c3⟩
        · exact c3.symm
        · cases c3
      have ha : good g k → T g k = some a ∧ 1 < a.length := fun hg => ⟨(hT hg a).2 hex, hs hg a hex⟩
      refine ⟨store_inv c1 ha, (he.trans c2).trans (store_ext c1 ha), fun _ => .inl ?_, fun hg _ _ =>
        store_loaded (ha hg).1 (ha hg).2, fun _ _ => by rw [store_entry, if_pos ⟨rfl, rfl⟩]; rfl⟩
      change Except.ok ((s2.store g k a).read s2.heap.length) = expected
      rw [store_read, if_pos rfl, hex]
  unfold cached
  cases force with
  | true =>
    obtain ⟨x1, x2, x3, -, x5⟩ := hre s h (Ext.refl _)
    exact ⟨x1, x2, x3, fun _ hf => absurd hf (by simp), fun _ hf => absurd hf (by simp), x5⟩
  | false =>
    simp only [Bool.false_eq_true, if_false]
    obtain ⟨l1, l2, l3, l4⟩ := reallyLoad_spec h g k
    cases he : s.entry g k with
    | none =>
      rw [l3 he]
      obtain ⟨x1, x2, x3, x4, x5⟩ := hre s h (Ext.refl _)
      exact ⟨x1, x2, x3, fun _ _ hn => absurd hn (by simp), fun hg _ => x4 hg he, x5⟩
    | some r =>
      rw [he] at l4
      revert l1 l2 l4
      rcases reallyLoad g k s with ⟨res, s1⟩
      intro l1 l2 l4
      cases res with
      | ok u =>
        dsimp only
        have hk : (s1.entry g k).isSome := l2.keys g k (by rw [he]; rfl)
        obtain ⟨r1, hr1⟩ := Option.isSome_iff_exists.1 hk
        have hr1' : (s1.dicts g).lookup k = some r1 := hr1
        rw [hr1']
        dsimp only
        have hv : good g k → (Except.ok (s1.read r1) : Py Arr) = expected ∧ Loaded T s1 g k := by
          intro hg
          obtain ⟨-, r2, b, e1, e2, e3, e4⟩ := l4 hg rfl
          rw [hr1] at e1
          obtain rfl := Option.some.inj e1
          exact ⟨by rw [e4]; exact ((hT hg b).1 e2).symm, r1, b, hr1, e2, e3, e4⟩
        exact ⟨l1, l2, fun hg => .inl (hv hg).1, fun hg _ _ => (hv hg).1, fun hg _ _ => (hv hg).2,
          fun _ _ => hk⟩
      | error e =>
        have hng : ¬good g k := by
          intro hg
          obtain ⟨l5, -⟩ := l4 hg rfl
          cases l5
        by_cases hke : e = .keyError
        · subst hke
          obtain ⟨x1, x2, x3, -, x5⟩ := hre s1 l1 l2
          exact ⟨x1, x2, x3, fun hg => absurd hg hng, fun hg => absurd hg hng, x5⟩
        · cases e <;> first
            | exact absurd rfl hke
            | exact ⟨l1, l2, fun hg => absurd hg hng, fun hg => absurd hg hng, fun hg => absurd hg hng,
                fun _ ha => by cases ha⟩

/-- The array a key stands for, computed from the snapshot. -/
noncomputable def expected (env : Env) (g : Grp) (k : Key) : Py Arr :=
  match g, k.line with
  | .colden, none => env.compute k.elem k.ion 0 false
  | .tau, some l => env.compute k.elem k.ion l true
  | .tau_obs, none => observer env k.elem k.ion
  | .velocity, none | .temperature, none | .density_weight_density, none => do
    let num ← env.weighted g k.elem k.ion
    let c ← env.compute k.elem k.ion 0 false
    env.divide g num (noZero (c.map (· / env.phys)))
  | _, _ => .error .keyError

/-- The known values. -/
noncomputable def truth (env : Env) : Truth := fun g k => (expected env g k).toOption

theorem truth_iff (env : Env) (g : Grp) (k : Key) (a : Arr) :
    truth env g k = some a ↔ expected env g k = .ok a := by
  unfold truth
  cases expected env g k <;> simp [Except.toOption]

theorem Env.le_refl (env : Env) : env.le env :=
  ⟨fun _ _ _ _ => .inl rfl, fun _ _ _ => .inl rfl, rfl, rfl, rfl, rfl⟩

/-- The group and key of a query, and whether it forces a computation. -/
def Query.slot : Query → Grp × Key
  | .col_density e i _ => (.colden, ⟨e, i, none⟩)
  | .tau e i l _ => (.tau, ⟨e, i, some l⟩)
  | .observer_tau e i _ => (.tau_obs, ⟨e, i, none⟩)
  | .velocity e i => (.velocity, ⟨e, i, none⟩)
  | .temp e i => (.temperature, ⟨e, i, none⟩)
  | .dens_weighted e i => (.density_weight_density, ⟨e, i, none⟩)

/-- Whether the query forces a computation. -/
def Query.forced : Query → Bool
  | .col_density _ _ f | .tau _ _ _ f | .observer_tau _ _ f => f
  | _ => false

theorem answer_eq (env : Env) (q : Query) (s : St) : q.answer env s = valueOf (q.run env s) := rfl

theorem compOk_const {full : Prop} {x y : Py Arr} (h : x = y ∨ (¬full ∧ ∃ e, x = .error e)) :
    CompOk T good full y (fun s => (x, s)) := fun s hs => ⟨hs, Ext.refl _, h⟩

theorem mapM_or {full : Prop} (f g : ℤ → Py Arr) (h : ∀ l, f l = g l ∨ (¬full ∧ ∃ x, f l = .error x)) (ls : List ℤ) :
    ls.mapM f = ls.mapM g ∨ (¬full ∧ ∃ x, ls.mapM f = .error x) := by
  induction ls with
  | nil => left; rfl
  | cons l ls ih =>
    rw [List.mapM_cons, List.mapM_cons]
    rcases h l with h1 | ⟨hf, x, hx⟩
    · rw [h1]
      cases g l with
      | error x => left; rfl
      | ok a =>
        rcases ih with h2 | ⟨hf, x, hx⟩
        · left; rw [h2]
        · right; exact ⟨hf, x, by rw [hx]; rfl⟩
    · right; exact ⟨hf, x, by rw [hx]; rfl⟩

theorem observer_or {env env2 : Env} (hle : env2.le env) {full : Prop} (hf : full → env2 = env) (e : String) (i : ℤ) :
    observer env2 e i = observer env e i ∨ (¬full ∧ ∃ x, observer env2 e i = .error x) := by
  by_cases hfull : full
  · left; rw [hf hfull]
  · unfold observer
    rw [hle.lines, hle.pick]
    cases env.lines e i with
    | error x => left; rfl
    | ok ls =>
      have := mapM_or (full := full) (fun l => env2.compute e i l true) (fun l => env.compute e i l true)
        (fun l => (hle.compute e i l true).imp id (fun h => ⟨hfull, h⟩)) ls
      rcases this with h | ⟨-, x, hx⟩
      · left
        change (ls.mapM (fun l => env2.compute e i l true) >>= _) = (ls.mapM (fun l => env.compute e i l true) >>= _)
        rw [h]
      · right
        refine ⟨hfull, x, ?_⟩
        change (ls.mapM (fun l => env2.compute e i l true) >>= _) = _
        rw [hx]; rfl

/-- Every computed array has more than one element. -/
def Sized (env : Env) : Prop := ∀ g k a, expected env g k = .ok a → 1 < a.length

/-- The dictionaries whose entries `save_file` does not load first. -/
def Lossy (g : Grp) : Prop := g = .temperature ∨ g = .density_weight_density

/-- Everything but those is known to be right. -/
def GoodBut (good : Grp → Key → Prop) : Prop := ∀ g k, ¬Lossy g → good g k

theorem GoodBut.colden {good : Grp → Key → Prop} (h : GoodBut good) (k : Key) : good .colden k :=
  h _ _ (by rintro (h | h) <;> cases h)

theorem colden_compOk {env env2 : Env} (hle : env2.le env) {full : Prop} (hf : full → env2 = env)
    (e : String) (i : ℤ) :
    CompOk T good full (expected env .colden ⟨e, i, none⟩) (fun s => (env2.compute e i 0 false, s)) :=
  compOk_const (by
    by_cases hfull : full
    · left; rw [hf hfull]; rfl
    · exact (hle.compute e i 0 false).imp id (fun h => ⟨hfull, h⟩))

theorem massWeighted_compOk {env env2 : Env} (hle : env2.le env) {full : Prop} (hf : full → env2 = env)
    (hsz : Sized env) (hg : ∀ k, good .colden k) (g : Grp) (e : String) (i : ℤ)
    (hgr : g = .velocity ∨ g = .temperature ∨ g = .density_weight_density) :
    CompOk (truth env) good full (expected env g ⟨e, i, none⟩) (massWeighted env2 g e i) := by
  have hex : expected env g ⟨e, i, none⟩ = (do
      let num ← env.weighted g e i
      let c ← env.compute e i 0 false
      env.divide g num (noZero (c.map (· / env.phys)))) := by
    rcases hgr with rfl | rfl | rfl <;> rfl
  intro s hs
  unfold massWeighted
  rw [hex]
  have hw : env2.weighted g e i = env.weighted g e i ∨ (¬full ∧ ∃ x, env2.weighted g e i = .error x) := by
    by_cases hfull : full
    · left; rw [hf hfull]
    · exact (hle.weighted g e i).imp id (fun h => ⟨hfull, h⟩)
  cases hw2 : env2.weighted g e i with
  | error x =>
    rw [hw2] at hw
    refine ⟨hs, Ext.refl _, ?_⟩
    rcases hw with hw | ⟨hw, -⟩
    · left; rw [← hw]; rfl
    · right; exact ⟨hw, x, rfl⟩
  | ok num =>
    rw [hw2] at hw
    have hw1 : env.weighted g e i = .ok num := by
      rcases hw with hw | ⟨-, x, hw⟩
      · exact hw.symm
      · cases hw
    rw [hw1]
    obtain ⟨c1, c2, c3, -, -, -⟩ := cached_spec hs .colden ⟨e, i, none⟩ false (colden_compOk hle hf e i)
      (fun _ a => truth_iff env _ _ a) (fun _ a => hsz _ _ a)
    have c3' := c3 (hg _)
    unfold get_density get_col_density
    revert c1 c2 c3'
    rcases cached .colden ⟨e, i, none⟩ false (fun s => (env2.compute e i 0 false, s)) s with ⟨res, s1⟩
    intro c1 c2 c3'
    change _ ∧ _ ∧ ((match (match (res, s1) with
      | (.ok r, s1) => ((Except.ok ((s1.read r).map (· / env2.phys)) : Py Arr), s1)
      | (.error e, s1) => (.error e, s1)) with
      | (.error e, s1) => ((Except.error e : Py Arr), s1)
      | (.ok den, s1) => (env2.divide g num (noZero den), s1)).1 = _ ∨ _)
    cases res with
    | error x =>
      refine ⟨c1, c2, ?_⟩
      rcases c3' with c3' | ⟨c3', -⟩
      · left
        have : env.compute e i 0 false = .error x := c3'.symm
        rw [this]; rfl
      · right; exact ⟨c3', x, rfl⟩
    | ok r =>
      refine ⟨c1, c2, .inl ?_⟩
      have : env.compute e i 0 false = .ok (s1.read r) := by
        rcases c3' with c3' | ⟨-, x, c3'⟩
        · exact c3'.symm
        · cases c3'
      rw [this]
      change env2.divide g num (noZero ((s1.read r).map (· / env2.phys))) =
        env.divide g num (noZero ((s1.read r).map (· / env.phys)))
      rw [hle.divide, hle.phys]

/-- A query: the store stays right, and the answer is the true value, or an error where the data is
missing. -/
theorem run_spec_of {env env2 : Env} (hle : env2.le env) {full : Prop} (hf : full → env2 = env)
    (hsz : Sized env) (hg : ∀ k, good .colden k) {s : St} (h : Inv (truth env) good s) (q : Query) :
    Inv (truth env) good (q.run env2 s).2 ∧ Ext (truth env) good s (q.run env2 s).2 ∧
    (good q.slot.1 q.slot.2 → q.answer env2 s = expected env q.slot.1 q.slot.2 ∨
      (¬full ∧ ∃ e, q.answer env2 s = .error e)) ∧
    (good q.slot.1 q.slot.2 → q.forced = false → (s.entry q.slot.1 q.slot.2).isSome →
      q.answer env2 s = expected env q.slot.1 q.slot.2) ∧
    (good q.slot.1 q.slot.2 → q.forced = false →
      LoadedIf (truth env) (q.run env2 s).2 q.slot.1 q.slot.2) ∧
    (∀ a, q.answer env2 s = .ok a → ((q.run env2 s).2.entry q.slot.1 q.slot.2).isSome) := by
  have mw := fun g e i hgr => cached_spec (full := full) h g ⟨e, i, none⟩ false
    (massWeighted_compOk hle hf hsz hg g e i hgr) (fun _ a => truth_iff env _ _ a) (fun _ a => hsz _ _ a)
  cases q with
  | col_density e i f =>
    exact cached_spec h .colden ⟨e, i, none⟩ f (colden_compOk hle hf e i)
      (fun _ a => truth_iff env _ _ a) (fun _ a => hsz _ _ a)
  | tau e i l f =>
    exact cached_spec (full := full) (expected := expected env .tau ⟨e, i, some l⟩) h .tau ⟨e, i, some l⟩ f
      (compOk_const (by
        by_cases hfull : full
        · left; rw [hf hfull]; rfl
        · exact (hle.compute e i l true).imp id (fun h => ⟨hfull, h⟩)))
      (fun _ a => truth_iff env _ _ a) (fun _ a => hsz _ _ a)
  | observer_tau e i f =>
    exact cached_spec (full := full) (expected := expected env .tau_obs ⟨e, i, none⟩) h .tau_obs ⟨e, i, none⟩ f
      (compOk_const (observer_or hle hf e i))
      (fun _ a => truth_iff env _ _ a) (fun _ a => hsz _ _ a)
  | velocity e i => exact mw .velocity e i (.inl rfl)
  | temp e i => exact mw .temperature e i (.inr (.inl rfl))
  | dens_weighted e i => exact mw .density_weight_density e i (.inr (.inr rfl))

theorem run_spec {env env2 : Env} (hle : env2.le env) {full : Prop} (hf : full → env2 = env)
    (hsz : Sized env) (hg : GoodBut good) {s : St} (h : Inv (truth env) good s) (q : Query) :
    Inv (truth env) good (q.run env2 s).2 ∧ Ext (truth env) good s (q.run env2 s).2 ∧
    (good q.slot.1 q.slot.2 → q.answer env2 s = expected env q.slot.1 q.slot.2 ∨
      (¬full ∧ ∃ e, q.answer env2 s = .error e)) ∧
    (good q.slot.1 q.slot.2 → q.forced = false → (s.entry q.slot.1 q.slot.2).isSome →
      q.answer env2 s = expected env q.slot.1 q.slot.2) ∧
    (good q.slot.1 q.slot.2 → q.forced = false →
      LoadedIf (truth env) (q.run env2 s).2 q.slot.1 q.slot.2) ∧
    (∀ a, q.answer env2 s = .ok a → ((q.run env2 s).2.entry q.slot.1 q.slot.2).isSome) :=
  run_spec_of hle hf hsz hg.colden h q

/-- A sequence of queries. -/
theorem after_spec_of {env env2 : Env} (hle : env2.le env) (hsz : Sized env) (hg : ∀ k, good .colden k) (qs : List Query)
    {s : St} (h : Inv (truth env) good s) :
    Inv (truth env) good (after env2 s qs) ∧ Ext (truth env) good s (after env2 s qs) := by
  induction qs generalizing s with
  | nil => exact ⟨h, Ext.refl _⟩
  | cons q qs ih =>
    obtain ⟨h1, h2, -⟩ := run_spec_of (full := False) hle (fun h => h.elim) hsz hg h q
    obtain ⟨i1, i2⟩ := ih h1
    exact ⟨i1, h2.trans i2⟩

theorem after_spec {env env2 : Env} (hle : env2.le env) (hsz : Sized env) (hg : GoodBut good) (qs : List Query)
    {s : St} (h : Inv (truth env) good s) :
    Inv (truth env) good (after env2 s qs) ∧ Ext (truth env) good s (after env2 s qs) :=
  after_spec_of hle hsz hg.colden qs h

theorem fresh_inv (d : Option HFile) : Inv T good (St.fresh d) := by
  intro g k r h; cases h

/-- After a query, the value stays in memory. -/
theorem after_loaded_of {env env2 : Env} (hle : env2.le env) (hsz : Sized env) (hg : ∀ k, good .colden k) {qs : List Query}
    {s : St} (h : Inv (truth env) good s) {q : Query} (hq : q ∈ qs) (hqg : good q.slot.1 q.slot.2)
    (hqf : q.forced = false) : LoadedIf (truth env) (after env2 s qs) q.slot.1 q.slot.2 := by
  induction qs generalizing s with
  | nil => cases hq
  | cons q' qs ih =>
    obtain ⟨h1, h2, -, -, h5, -⟩ := run_spec_of (full := False) hle (fun h => h.elim) hsz hg h q'
    rcases List.mem_cons.1 hq with rfl | hq
    · exact (after_spec_of hle hsz hg qs h1).2.loaded _ _ hqg (h5 hqg hqf)
    · exact ih h1 hq

theorem after_loaded {env env2 : Env} (hle : env2.le env) (hsz : Sized env) (hg : GoodBut good) {qs : List Query}
    {s : St} (h : Inv (truth env) good s) {q : Query} (hq : q ∈ qs) (hqg : good q.slot.1 q.slot.2)
    (hqf : q.forced = false) : LoadedIf (truth env) (after env2 s qs) q.slot.1 q.slot.2 :=
  after_loaded_of hle hsz hg.colden h hq hqg hqf

/-- A key that was answered stays in the dictionary. -/
theorem after_present {env : Env} (hsz : Sized env) (hg : GoodBut good) {qs : List Query}
    {s : St} (h : Inv (truth env) good s) {q : Query} (hq : q ∈ qs) (hqg : good q.slot.1 q.slot.2) {a : Arr}
    (ha : expected env q.slot.1 q.slot.2 = .ok a) : ((after env s qs).entry q.slot.1 q.slot.2).isSome := by
  induction qs generalizing s with
  | nil => cases hq
  | cons q' qs ih =>
    obtain ⟨h1, h2, h3, -, -, h6⟩ := run_spec (full := True) (Env.le_refl env) (fun _ => rfl) hsz hg h q'
    rcases List.mem_cons.1 hq with rfl | hq
    · refine (after_spec (Env.le_refl env) hsz hg qs h1).2.keys _ _ ?_
      rcases h3 hqg with h3 | ⟨h3, -⟩
      · exact h6 a (h3.trans ha)
      · exact absurd trivial h3
    · exact ih h1 hq

/-- On a new object every query computes. -/
theorem fresh_answer (env : Env) (q : Query) (d : Option HFile) :
    q.answer env (St.fresh d) = expected env q.slot.1 q.slot.2 := by
  have key : ∀ (g : Grp) (k : Key) (f : Bool) (comp : St → Py Arr × St) (x : Py Arr),
      (comp (St.fresh d)).1 = x → valueOf (cached g k f comp (St.fresh d)) = x := by
    intro g k f comp x hx
    have : cached g k f comp (St.fresh d) = (match comp (St.fresh d) with
        | (.ok a, s1) => (.ok s1.heap.length, s1.store g k a)
        | (.error e, s1) => (.error e, s1)) := by
      cases f <;> rfl
    rw [this]
    revert hx
    rcases comp (St.fresh d) with ⟨r, s1⟩
    rintro rfl
    cases r with
    | error e => rfl
    | ok a =>
      change Except.ok ((s1.store g k a).read s1.heap.length) = _
      rw [store_read, if_pos rfl]
  have mw : ∀ g e i, (g = .velocity ∨ g = .temperature ∨ g = .density_weight_density) →
      (massWeighted env g e i (St.fresh d)).1 = expected env g ⟨e, i, none⟩ := by
    intro g e i hgr
    have hex : expected env g ⟨e, i, none⟩ = (do
        let num ← env.weighted g e i
        let c ← env.compute e i 0 false
        env.divide g num (noZero (c.map (· / env.phys)))) := by
      rcases hgr with rfl | rfl | rfl <;> rfl
    rw [hex]
    unfold massWeighted
    cases env.weighted g e i with
    | error x => rfl
    | ok num =>
      have hk := key .colden ⟨e, i, none⟩ false (fun s => (env.compute e i 0 false, s)) _ rfl
      unfold get_density get_col_density
      dsimp only at hk ⊢
      revert hk
      rcases cached .colden ⟨e, i, none⟩ false (fun s => (env.compute e i 0 false, s)) (St.fresh d) with ⟨res, s1⟩
      intro hk
      cases res with
      | error x =>
        have : env.compute e i 0 false = .error x := hk.symm
        rw [this]; rfl
      | ok r =>
        have : env.compute e i 0 false = .ok (s1.read r) := hk.symm
        rw [this]; rfl
  rw [answer_eq]
  cases q with
  | col_density e i f => exact key _ _ _ _ _ rfl
  | tau e i l f => exact key _ _ _ _ _ rfl
  | observer_tau e i f => exact key _ _ _ _ _ rfl
  | velocity e i => exact key .velocity ⟨e, i, none⟩ false _ _ (mw _ e i (.inl rfl))
  | temp e i => exact key .temperature ⟨e, i, none⟩ false _ _ (mw _ e i (.inr (.inl rfl)))
  | dens_weighted e i => exact key .density_weight_density ⟨e, i, none⟩ false _ _ (mw _ e i (.inr (.inr rfl)))

/-- Array sizes in terms of the queries. -/
theorem sized_of_queries {env : Env} (h : ∀ (q : Query) (a : Arr), q.answer env (St.fresh none) = .ok a → 1 < a.length) :
    Sized env := by
  intro g k a ha
  obtain ⟨e, i, l⟩ := k
  have H : ∀ q : Query, q.slot = (g, ⟨e, i, l⟩) → 1 < a.length := by
    intro q hq
    apply h q a
    rw [fresh_answer, hq]
    exact ha
  cases g <;> cases l <;> first
    | exact H (.col_density e i false) rfl
    | exact H (.tau e i _ false) rfl
    | exact H (.observer_tau e i false) rfl
    | exact H (.velocity e i) rfl
    | exact H (.temp e i) rfl
    | exact H (.dens_weighted e i) rfl
    | (cases ha)

/-! ### Saving and loading -/

theorem path_inj {k k' : Key} (h : path k = path k') : k = k' := by
  obtain ⟨e, i, l⟩ := k
  obtain ⟨e', i', l'⟩ := k'
  cases l <;> cases l' <;> simp [path] at h ⊢ <;> exact h

theorem unpath_path (k : Key) : unpath (path k) = some k := by
  obtain ⟨e, i, l⟩ := k
  cases l <;> simp [path, unpath]

theorem lookup_mem {α β : Type} [BEq α] [LawfulBEq α] [DecidableEq α] {l : List (α × β)} {k : α} {b : β} (h : l.lookup k = some b) :
    (k, b) ∈ l := by
  induction l with
  | nil => cases h
  | cons p l ih =>
    rw [List.lookup_cons] at h
    by_cases hk : k = p.1
    · subst hk; simp at h; subst h; simp
    · have : (k == p.1) = false := by simpa using hk
      rw [this] at h
      exact List.mem_cons_of_mem _ (ih h)

theorem mem_lookup {α β : Type} [BEq α] [LawfulBEq α] [DecidableEq α] {l : List (α × β)} {k : α} {b : β} (h : (k, b) ∈ l) :
    ∃ b', l.lookup k = some b' := by
  induction l with
  | nil => cases h
  | cons p l ih =>
    rw [List.lookup_cons]
    by_cases hk : k = p.1
    · subst hk; exact ⟨p.2, by simp⟩
    · have hb : (k == p.1) = false := by simpa using hk
      rw [hb]
      rcases List.mem_cons.1 h with rfl | h
      · exact absurd rfl hk
      · exact ih h

theorem nodup_lookup {d : Dict} (h : (d.map Prod.fst).Nodup) {k : Key} {r : ℕ} (hm : (k, r) ∈ d) :
    d.lookup k = some r := by
  induction d with
  | nil => cases hm
  | cons p d ih =>
    rw [List.map_cons, List.nodup_cons] at h
    rw [List.lookup_cons]
    rcases List.mem_cons.1 hm with rfl | hm
    · simp
    · have : (k == p.1) = false := by
        simp only [beq_eq_false_iff_ne]
        rintro rfl
        exact h.1 (List.mem_map.2 ⟨_, hm, rfl⟩)
      rw [this]
      exact ih h.2 hm

theorem reallyLoad_keys (g : Grp) (k : Key) (s : St) (g' : Grp) (k' : Key) :
    ((reallyLoad g k s).2.entry g' k').isSome = (s.entry g' k').isSome := by
  unfold reallyLoad
  cases hr : (s.dicts g).lookup k with
  | none => rfl
  | some r =>
    dsimp only
    split
    · rfl
    · cases s.disk with
      | none => rfl
      | some f =>
        dsimp only
        cases (f g).lookup (path k) with
        | none => rfl
        | some a =>
          dsimp only
          rw [store_entry]
          split
          · next h =>
            obtain ⟨rfl, rfl⟩ := h
            unfold St.entry
            rw [hr]; rfl
          · rfl

theorem loadAll_spec {s : St} (h : Inv T good s) {g : Grp} (hg : ∀ k, good g k) :
    (loadAll g s).1 = .ok () ∧ Inv T good (loadAll g s).2 ∧ Ext T good s (loadAll g s).2 ∧
    (∀ g' k', ((loadAll g s).2.entry g' k').isSome = (s.entry g' k').isSome) ∧
    ∀ k, LoadedIf T (loadAll g s).2 g k := by
  have H : ∀ (ks : List Key) (s1 : St), Inv T good s1 → Ext T good s s1 →
      (∀ g' k', (s1.entry g' k').isSome = (s.entry g' k').isSome) →
      (∀ k ∈ ks, (s.entry g k).isSome) →
      let x := ks.foldl (fun acc k => match acc with
        | ((.ok _ : Py Unit), s1) => reallyLoad g k s1
        | (.error e, s1) => (.error e, s1)) ((.ok () : Py Unit), s1)
      x.1 = .ok () ∧ Inv T good x.2 ∧ Ext T good s1 x.2 ∧
        (∀ g' k', (x.2.entry g' k').isSome = (s.entry g' k').isSome) ∧ ∀ k ∈ ks, LoadedIf T x.2 g k := by
    intro ks
    induction ks with
    | nil => intro s1 i e hk _; exact ⟨rfl, i, Ext.refl _, hk, fun k hk => by cases hk⟩
    | cons k ks ih =>
      intro s1 i e hk hks
      obtain ⟨l1, l2, -, l4⟩ := reallyLoad_spec i g k
      obtain ⟨l5, l6⟩ := l4 (hg k) (by rw [hk]; exact hks k (by simp))
      have hx : reallyLoad g k s1 = (.ok (), (reallyLoad g k s1).2) := by
        rw [← l5]
      obtain ⟨x1, x2, x3, x4, x5⟩ := ih (reallyLoad g k s1).2 l1 (e.trans l2)
        (fun g' k' => (reallyLoad_keys g k s1 g' k').trans (hk g' k')) (fun k hk => hks k (by simp [hk]))
      rw [← hx] at x1 x2 x3 x4 x5
      refine ⟨x1, x2, l2.trans x3, x4, ?_⟩
      intro k' hk'
      rcases List.mem_cons.1 hk' with rfl | hk'
      · exact x3.loaded g k' (hg k') (fun _ => l6)
      · exact x5 k' hk'
  obtain ⟨x1, x2, x3, x4, x5⟩ := H ((s.dicts g).map Prod.fst) s h (Ext.refl _) (fun _ _ => rfl) (by
    intro k hk
    obtain ⟨p, hp, rfl⟩ := List.mem_map.1 hk
    obtain ⟨r, hr⟩ := mem_lookup (k := p.1) (b := p.2) hp
    unfold St.entry; rw [hr]; rfl)
  refine ⟨x1, x2, x3, x4, ?_⟩
  intro k hk
  refine x5 k ?_ hk
  have hk' : (s.entry g k).isSome := by rw [← x4]; exact hk
  obtain ⟨r, hr⟩ := Option.isSome_iff_exists.1 hk'
  exact List.mem_map.2 ⟨(k, r), lookup_mem hr, rfl⟩

/-- Before writing, everything but temperatures and weighted densities is in memory. -/
theorem loadForSave_spec {s : St} (h : Inv T good s) (hg : GoodBut good) :
    (loadForSave s).1 = .ok () ∧ Inv T good (loadForSave s).2 ∧ Ext T good s (loadForSave s).2 ∧
    (∀ g' k', ((loadForSave s).2.entry g' k').isSome = (s.entry g' k').isSome) ∧
    ∀ g k, ¬Lossy g → g ≠ .num_important → LoadedIf T (loadForSave s).2 g k := by
  have hn : ∀ g : Grp, g ≠ .temperature → g ≠ .density_weight_density → ∀ k, good g k :=
    fun g h1 h2 k => hg g k (by rintro (h | h) <;> contradiction)
  obtain ⟨a1, a2, a3, a4, a5⟩ := loadAll_spec h (hn .tau_obs (by decide) (by decide))
  obtain ⟨b1, b2, b3, b4, b5⟩ := loadAll_spec a2 (hn .tau (by decide) (by decide))
  obtain ⟨c1, c2, c3, c4, c5⟩ := loadAll_spec b2 (hn .colden (by decide) (by decide))
  obtain ⟨d1, d2, d3, d4, d5⟩ := loadAll_spec c2 (hn .velocity (by decide) (by decide))
  have hx : loadForSave s = (.ok (), (loadAll .velocity (loadAll .colden (loadAll .tau (loadAll .tau_obs s).2).2).2).2) := by
    unfold loadForSave
    have pe : ∀ x : Py Unit × St, x.1 = .ok () → x = (.ok (), x.2) := by
      rintro ⟨a, b⟩ h; simp at h; rw [h]
    rw [pe _ a1]; dsimp only
    rw [pe _ b1]; dsimp only
    rw [pe _ c1]; dsimp only
    rw [pe _ d1]
  rw [hx]
  refine ⟨rfl, d2, ((a3.trans b3).trans c3).trans d3, fun g' k' => by rw [d4, c4, b4, a4], ?_⟩
  intro g k h1 h2
  have hgk := hg g k h1
  cases g with
  | tau_obs => exact d3.loaded _ k hgk (c3.loaded _ k hgk (b3.loaded _ k hgk (a5 k)))
  | tau => exact d3.loaded _ k hgk (c3.loaded _ k hgk (b5 k))
  | colden => exact d3.loaded _ k hgk (c5 k)
  | velocity => exact d5 k
  | temperature => exact absurd (.inl rfl) h1
  | num_important => exact absurd rfl h2
  | density_weight_density => exact absurd (.inr rfl) h1

/-- The contents of a saved group. -/
theorem mem_saveGroup {s : St} (hw : Wf s) (g : Grp) (p : List String) (a : Arr) :
    (p, a) ∈ saveGroup s g ↔ ∃ k r, s.entry g k = some r ∧ p = path k ∧ a = s.read r := by
  have H : ∀ (d : Dict) (acc : List (List String × Arr)), (d.map Prod.fst).Nodup →
      (∀ q ∈ acc, ∀ x ∈ d, q.1 ≠ path x.1) →
      d.foldl (fun acc p => acc.filter (fun q => q.1 ≠ path p.1) ++ [(path p.1, s.read p.2)]) acc =
        acc ++ d.map (fun x => (path x.1, s.read x.2)) := by
    intro d
    induction d with
    | nil => intro acc _ _; simp
    | cons x d ih =>
      intro acc hn hacc
      rw [List.map_cons, List.nodup_cons] at hn
      rw [List.foldl_cons]
      have hf : acc.filter (fun q => q.1 ≠ path x.1) = acc := by
        rw [List.filter_eq_self]
        intro q hq
        simpa using hacc q hq x (by simp)
      rw [hf, ih _ hn.2]
      · simp
      · intro q hq y hy
        rcases List.mem_append.1 hq with hq | hq
        · exact hacc q hq y (by simp [hy])
        · simp only [List.mem_singleton] at hq
          subst hq
          intro he
          have := path_inj he
          exact hn.1 (List.mem_map.2 ⟨y, hy, this.symm⟩)
  unfold saveGroup
  rw [H _ [] (hw g) (by simp), List.nil_append, List.mem_map]
  constructor
  · rintro ⟨⟨k, r⟩, hx, he⟩
    simp only [Prod.mk.injEq] at he
    exact ⟨k, r, nodup_lookup (hw g) hx, he.1.symm, he.2.symm⟩
  · rintro ⟨k, r, hr, rfl, rfl⟩
    exact ⟨(k, r), lookup_mem hr, rfl⟩

/-- A savefile whose good entries are right. -/
def FileOk (T : Truth) (good : Grp → Key → Prop) (f : HFile) : Prop :=
  ∀ g p a, (p, a) ∈ f g → ∃ k, p = path k ∧ (good g k → T g k = some a ∧ 1 < a.length)

/-- A key is in the file. -/
def InFile (f : HFile) (g : Grp) (k : Key) : Prop := ∃ a, (path k, a) ∈ f g

theorem save_spec {env : Env} {s : St} (h : Inv (truth env) good s) (hw : Wf s) (hg : GoodBut good)
    (hl : ∀ g k, good g k → Lossy g → LoadedIf (truth env) s g k) :
    ∃ s1 f, save_file s = (.ok (), s1) ∧ s1.disk = some f ∧ FileOk (truth env) good f ∧
      ∀ g k, (s.entry g k).isSome → InFile f g k := by
  obtain ⟨a1, a2, a3, a4, a5⟩ := loadForSave_spec h hg
  have hw' := a3.wf hw
  refine ⟨{ (loadForSave s).2 with disk := some (saveGroup (loadForSave s).2) }, saveGroup (loadForSave s).2, ?_,
    rfl, ?_, ?_⟩
  · unfold save_file
    rw [show loadForSave s = (.ok (), (loadForSave s).2) from by rw [← a1]]
  · intro g p a hpa
    obtain ⟨k, r, hr, rfl, rfl⟩ := (mem_saveGroup hw' g p a).1 hpa
    refine ⟨k, rfl, fun hgk => ?_⟩
    have hL : LoadedIf (truth env) (loadForSave s).2 g k := by
      by_cases hlo : Lossy g
      · exact a3.loaded g k hgk (hl g k hgk hlo)
      · by_cases hn : g = .num_important
        · subst hn
          obtain ⟨b, hb, -⟩ := (a2 _ k r hr).2 hgk
          have : truth env .num_important k = none := by
            unfold truth expected
            cases k.line <;> rfl
          rw [this] at hb
          cases hb
        · exact a5 g k hlo hn
    obtain ⟨r', b, e1, e2, e3, e4⟩ := hL (by rw [hr]; rfl)
    rw [hr] at e1
    obtain rfl := Option.some.inj e1
    rw [e4]
    exact ⟨e2, e3⟩
  · intro g k hk
    rw [← a4] at hk
    obtain ⟨r, hr⟩ := Option.isSome_iff_exists.1 hk
    exact ⟨_, (mem_saveGroup hw' g _ _).2 ⟨k, r, hr, rfl, rfl⟩⟩

theorem store_inv' {s : St} (h : Inv T good s) {g : Grp} {k : Key} {a : Arr}
    (ha : good g k → EntryOk T (s.store g k a) g k s.heap.length) : Inv T good (s.store g k a) := by
  intro g' k' r hr
  have hlen : (s.store g k a).heap.length = s.heap.length + 1 := by simp [St.store]
  rw [store_entry] at hr
  by_cases hk : g' = g ∧ k' = k
  · rw [if_pos hk] at hr
    obtain rfl := Option.some.inj hr
    obtain ⟨rfl, rfl⟩ := hk
    exact ⟨by omega, ha⟩
  · rw [if_neg hk] at hr
    obtain ⟨h1, h2⟩ := h g' k' r hr
    refine ⟨by omega, fun hg => ?_⟩
    obtain ⟨b, b1, b2, b3⟩ := h2 hg
    refine ⟨b, b1, b2, ?_⟩
    rw [store_read, if_neg h1.ne]
    exact b3

theorem load_spec {f : HFile} (hf : FileOk T good f) :
    ∃ s, load_savefile (some f) = .ok s ∧ Inv T good s ∧ Wf s ∧ s.disk = some f ∧
      ∀ g k, (s.entry g k).isSome ↔ InFile f g k := by
  -- one dataset
  have H1 : ∀ (g : Grp) (ps : List (List String × Arr)), (∀ p ∈ ps, p ∈ f g) → ∀ s : St, Inv T good s → Wf s →
      s.disk = some f →
      ∃ s', ps.foldl (loadEntry g) (.ok s) = .ok s' ∧ Inv T good s' ∧ Wf s' ∧ s'.disk = some f ∧
        ∀ g' k, (s'.entry g' k).isSome ↔ ((s.entry g' k).isSome ∨ (g' = g ∧ ∃ a, (path k, a) ∈ ps)) := by
    intro g ps
    induction ps with
    | nil => intro _ s i w d; exact ⟨s, rfl, i, w, d, by simp⟩
    | cons p ps ih =>
      intro hm s i w d
      obtain ⟨p1, a⟩ := p
      have hpm := hm (p1, a) (by simp)
      obtain ⟨k, rfl, hk⟩ := hf g p1 a hpm
      have e : loadEntry g (.ok s) (path k, a) =
          .ok (s.store g k (if g = .num_important then a else [0])) := by
        unfold loadEntry
        dsimp only
        rw [unpath_path]
      obtain ⟨s', h1, h2, h3, h4, h5⟩ := ih (fun p hp => hm p (by simp [hp]))
        (s.store g k (if g = .num_important then a else [0])) (store_inv' i (by
          intro hg
          obtain ⟨t1, t2⟩ := hk hg
          refine ⟨a, t1, t2, ?_⟩
          rw [store_read, if_pos rfl]
          split
          · left; rfl
          · right
            refine ⟨by simp, f, d, ?_⟩
            obtain ⟨b, hb⟩ := mem_lookup hpm
            obtain ⟨k', e1, e2⟩ := hf g _ b (lookup_mem hb)
            obtain rfl := path_inj e1
            have := (e2 hg).1
            rw [t1] at this
            rw [hb, ← this])) (store_wf w _ _ _) d
      refine ⟨s', by rw [List.foldl_cons, e]; exact h1, h2, h3, h4, ?_⟩
      intro g' k'
      rw [h5, store_entry]
      constructor
      · rintro (h | ⟨rfl, b, hb⟩)
        · split at h
          · next hh => exact .inr ⟨hh.1, a, by rw [hh.2]; simp⟩
          · exact .inl h
        · exact .inr ⟨rfl, b, by simp [hb]⟩
      · rintro (h | ⟨rfl, b, hb⟩)
        · left
          split
          · rfl
          · exact h
        · rcases List.mem_cons.1 hb with hb | hb
          · left
            simp only [Prod.mk.injEq] at hb
            rw [if_pos ⟨rfl, path_inj hb.1⟩]; rfl
          · exact .inr ⟨rfl, b, hb⟩
  have H2 : ∀ (gs : List Grp) (s : St), Inv T good s → Wf s → s.disk = some f →
      ∃ s', gs.foldl (fun acc g => (f g).foldl (loadEntry g) acc) (.ok s) = .ok s' ∧ Inv T good s' ∧ Wf s' ∧
        s'.disk = some f ∧ ∀ g' k, (s'.entry g' k).isSome ↔ ((s.entry g' k).isSome ∨ (g' ∈ gs ∧ InFile f g' k)) := by
    intro gs
    induction gs with
    | nil => intro s i w d; exact ⟨s, rfl, i, w, d, by simp⟩
    | cons g gs ih =>
      intro s i w d
      obtain ⟨s1, a1, a2, a3, a4, a5⟩ := H1 g (f g) (fun _ h => h) s i w d
      obtain ⟨s2, b1, b2, b3, b4, b5⟩ := ih s1 a2 a3 a4
      refine ⟨s2, by rw [List.foldl_cons, a1]; exact b1, b2, b3, b4, ?_⟩
      intro g' k
      rw [b5, a5, List.mem_cons]
      unfold InFile
      constructor
      · rintro ((h | ⟨rfl, h⟩) | ⟨h1, h2⟩)
        · exact .inl h
        · exact .inr ⟨.inl rfl, h⟩
        · exact .inr ⟨.inr h1, h2⟩
      · rintro (h | ⟨rfl | h1, h2⟩)
        · exact .inl (.inl h)
        · exact .inl (.inr ⟨rfl, h2⟩)
        · exact .inr ⟨h1, h2⟩
  obtain ⟨s, h1, h2, h3, h4, h5⟩ := H2 loadOrder (St.fresh (some f)) (fresh_inv _) (fun _ => by simp [St.fresh]) rfl
  refine ⟨s, h1, h2, h3, h4, ?_⟩
  intro g k
  rw [h5]
  have : g ∈ loadOrder := by cases g <;> decide
  simp [this, St.fresh, St.entry]

/-- All arrays of a newly loaded object are placeholders. -/
theorem load_placeholders {f : HFile} {s : St} (hl : load_savefile (some f) = .ok s) :
    ∀ g k r, g ≠ .num_important → s.entry g k = some r → r < s.heap.length ∧ s.read r = [0] := by
  have H1 : ∀ (g : Grp) (ps : List (List String × Arr)) (s s' : St),
      (∀ g k r, g ≠ .num_important → s.entry g k = some r → r < s.heap.length ∧ s.read r = [0]) →
      ps.foldl (loadEntry g) (.ok s) = .ok s' →
      (∀ g k r, g ≠ .num_important → s'.entry g k = some r → r < s'.heap.length ∧ s'.read r = [0]) := by
    intro g ps
    induction ps with
    | nil => intro s s' h he; obtain rfl := Except.ok.inj he; exact h
    | cons p ps ih =>
      intro s s' h he
      rw [List.foldl_cons] at he
      unfold loadEntry at he
      dsimp only at he
      cases hu : unpath p.1 with
      | none =>
        rw [hu] at he
        dsimp only at he
        have : ∀ ps : List (List String × Arr), ps.foldl (loadEntry g) (.error .valueError) = .error .valueError := by
          intro ps
          induction ps with
          | nil => rfl
          | cons p ps ih => rw [List.foldl_cons]; exact ih
        have h0 := this ps
        unfold loadEntry at h0
        rw [h0] at he
        cases he
      | some k =>
        rw [hu] at he
        refine ih _ s' ?_ he
        intro g' k' r hg' hr
        have hlen : (s.store g k (if g = .num_important then p.2 else [0])).heap.length = s.heap.length + 1 := by
          simp [St.store]
        rw [store_entry] at hr
        rw [store_read, hlen]
        split at hr
        · next hh =>
          obtain rfl := Option.some.inj hr
          rw [if_pos rfl, if_neg (by rw [← hh.1]; exact hg')]
          exact ⟨by omega, rfl⟩
        · obtain ⟨q1, q2⟩ := h g' k' r hg' hr
          rw [if_neg q1.ne]
          exact ⟨by omega, q2⟩
  have H2 : ∀ (gs : List Grp) (s s' : St),
      (∀ g k r, g ≠ .num_important → s.entry g k = some r → r < s.heap.length ∧ s.read r = [0]) →
      gs.foldl (fun acc g => (f g).foldl (loadEntry g) acc) (.ok s) = .ok s' →
      (∀ g k r, g ≠ .num_important → s'.entry g k = some r → r < s'.heap.length ∧ s'.read r = [0]) := by
    intro gs
    induction gs with
    | nil => intro s s' h he; obtain rfl := Except.ok.inj he; exact h
    | cons g gs ih =>
      intro s s' h he
      rw [List.foldl_cons] at he
      cases hx : (f g).foldl (loadEntry g) (.ok s) with
      | error x =>
        rw [hx] at he
        have e1 : ∀ (x : PyErr) (ps : List (List String × Arr)) g, ps.foldl (loadEntry g) (.error x) = .error x := by
          intro x ps g
          induction ps with
          | nil => rfl
          | cons p ps ih => rw [List.foldl_cons]; exact ih
        have e2 : ∀ (gs : List Grp), gs.foldl (fun acc g => (f g).foldl (loadEntry g) acc) (.error x) = .error x := by
          intro gs
          induction gs with
          | nil => rfl
          | cons g gs ih => rw [List.foldl_cons, e1]; exact ih
        rw [e2] at he
        cases he
      | ok s1 =>
        rw [hx] at he
        exact ih s1 s' (H1 g (f g) s s1 h hx) he
  exact H2 loadOrder (St.fresh (some f)) s (fun g k r _ h => by cases h) hl

/-- Loading one group leaves the entries of another alone. -/
theorem loadAll_frame {g g' : Grp} (hg : g ≠ g') (s : St) : (loadAll g s).2.entry g' = s.entry g' := by
  have R : ∀ k s, (reallyLoad g k s).2.entry g' = s.entry g' := by
    intro k s
    unfold reallyLoad
    cases (s.dicts g).lookup k with
    | none => rfl
    | some r =>
      dsimp only
      split
      · rfl
      · cases s.disk with
        | none => rfl
        | some f =>
          dsimp only
          cases (f g).lookup (path k) with
          | none => rfl
          | some b =>
            funext k'
            rw [store_entry, if_neg (fun h => hg h.1.symm)]
  have F : ∀ (ks : List Key) (x : Py Unit × St), (ks.foldl (fun acc k => match acc with
      | ((.ok _ : Py Unit), s1) => reallyLoad g k s1
      | (.error e, s1) => (.error e, s1)) x).2.entry g' = x.2.entry g' := by
    intro ks
    induction ks with
    | nil => intro x; rfl
    | cons k ks ih =>
      intro x
      rw [List.foldl_cons, ih]
      obtain ⟨x1, x2⟩ := x
      cases x1 with
      | error e => rfl
      | ok u => exact R k x2
  exact F _ _

end Verif.Store
