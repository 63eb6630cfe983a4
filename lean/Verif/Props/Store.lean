import Verif.Lemmas.Store

/-!
C12 (queries) and C13: the cached arrays of a `Spectra` object, saving and loading.

`Sizes env`: every array the snapshot can yield has more than one element. `Query.answer` is the array the
caller sees; `St.fresh none` is a new object with no savefile, so `q.answer env (St.fresh none)` is the
answer to `q` when asked first.
-/

namespace Verif.Props
open Verif Verif.Store

/-- Every array has more than one element (at least two pixels in all). -/
def Sizes (env : Env) : Prop := ∀ (q : Query) (a : Arr), q.answer env (St.fresh none) = .ok a → 1 < a.length

/-- C12, queries: whatever was asked before, and whatever old savefile is on disk, each query gives what it
gives on a new object, and arrays returned earlier are not modified. -/
theorem queries_independent {env : Env} (hs : Sizes env) (disk : Option HFile) (qs : List Query) (q : Query) :
    q.answer env (after env (St.fresh disk) qs) = q.answer env (St.fresh none) ∧
    ∀ r < (after env (St.fresh disk) qs).heap.length,
      (q.run env (after env (St.fresh disk) qs)).2.read r = (after env (St.fresh disk) qs).read r := by
  have hsz := sized_of_queries hs
  obtain ⟨h1, -⟩ := after_spec (good := fun _ _ => True) (Env.le_refl env) hsz (fun _ _ _ => trivial) qs
    (fresh_inv disk)
  obtain ⟨-, e, h, -⟩ := run_spec (full := True) (Env.le_refl env) (fun _ => rfl) hsz (fun _ _ _ => trivial) h1 q
  refine ⟨?_, fun r hr => read_prefix e.heap hr⟩
  rw [fresh_answer]
  rcases h trivial with h | ⟨h, -⟩
  · exact h
  · exact absurd trivial h

/-- C12: what the temperature is, whatever was asked before. Where there is gas of the species it is the weighted sum over the
density; where there is none nothing is divided by zero, the (vanishing) weighted sum itself is returned. -/
theorem temp_pixels {env : Env} (hs : Sizes env)
    (hd : ∀ num den, env.divide .temperature num den = .ok (List.zipWith (· / ·) num den)) {e : String} {i : ℤ} {num c : Arr}
    (hw : env.weighted .temperature e i = .ok num) (hc : env.compute e i 0 false = .ok c) (disk : Option HFile)
    (qs : List Query) :
    ∃ a, (Query.temp e i).answer env (after env (St.fresh disk) qs) = .ok a ∧
      ∀ (k : ℕ) n x, num[k]? = some n → c[k]? = some x →
        (x / env.phys ≠ 0 → a[k]? = some (n / (x / env.phys))) ∧ (x / env.phys = 0 → a[k]? = some n) := by
  rw [(queries_independent hs disk qs _).1, fresh_answer]
  refine ⟨List.zipWith (· / ·) num (noZero (c.map (· / env.phys))), ?_, ?_⟩
  · change (do
      let num ← env.weighted .temperature e i
      let c ← env.compute e i 0 false
      env.divide .temperature num (noZero (c.map (· / env.phys)))) = _
    rw [hw, hc]
    exact hd _ _
  · intro k n x hn hx
    constructor <;> intro h <;> simp [noZero, List.getElem?_zipWith, hn, hx, h]

/-- An environment: neutral hydrogen has a column density of two pixels and temperatures, nothing else is
available. -/
noncomputable def exEnv : Env where
  compute e i l b := if e = "H" ∧ i = 1 then .ok [1, 2] else .error .keyError
  lines _ _ := .ok [1215]
  pick ls := ls.headD []
  phys := 1
  weighted g e i := if e = "H" ∧ i = 1 ∧ g = .temperature then .ok [1e4, 2e4] else .error .keyError
  divide _ num den := .ok (List.zipWith (· / ·) num den)

theorem exEnv_sizes : Sizes exEnv := by
  intro q a ha
  rw [fresh_answer] at ha
  have hc : ∀ e i l b a, exEnv.compute e i l b = .ok a → a = [1, 2] := by
    intro e i l b a h
    change (if e = "H" ∧ i = 1 then (Except.ok [1, 2] : Py Arr) else .error .keyError) = _ at h
    split at h
    · exact (Except.ok.inj h).symm
    · cases h
  have hw : ∀ g e i, (do
      let num ← exEnv.weighted g e i
      let c ← exEnv.compute e i 0 false
      exEnv.divide g num (noZero (c.map (· / exEnv.phys)))) = .ok a → 1 < a.length := by
    intro g e i h
    change ((if e = "H" ∧ i = 1 ∧ g = .temperature then (Except.ok [1e4, 2e4] : Py Arr) else .error .keyError) >>= _)
      = _ at h
    by_cases hx : e = "H" ∧ i = 1 ∧ g = .temperature
    · rw [if_pos hx] at h
      cases hcc : exEnv.compute e i 0 false with
      | error x =>
        rw [hcc] at h
        cases h
      | ok c =>
        have hcv := hc _ _ _ _ _ hcc
        subst hcv
        rw [hcc] at h
        obtain rfl := Except.ok.inj h
        change 1 < (List.zipWith (· / ·) ([1e4, 2e4] : Arr) (noZero (([1, 2] : Arr).map (· / exEnv.phys)))).length
        simp [noZero]
    · rw [if_neg hx] at h
      cases h
  cases q with
  | col_density e i f => rw [hc _ _ _ _ _ ha]; simp
  | tau e i l f => rw [hc _ _ _ _ _ ha]; simp
  | observer_tau e i f =>
    change ((List.mapM (fun l => exEnv.compute e i l true) [1215]) >>= _) = _ at ha
    rw [List.mapM_cons, List.mapM_nil] at ha
    cases hcc : exEnv.compute e i 1215 true with
    | error x => rw [hcc] at ha; cases ha
    | ok c =>
      have hcv := hc _ _ _ _ _ hcc
      subst hcv
      rw [hcc] at ha
      obtain rfl := Except.ok.inj ha
      change 1 < ([1, 2] : Arr).length
      simp
  | velocity e i => exact hw _ e i ha
  | temp e i => exact hw _ e i ha
  | dens_weighted e i => exact hw _ e i ha

theorem exEnv_temp : (Query.temp "H" 1).answer exEnv (St.fresh none) = .ok [1e4, 1e4] := by
  rw [fresh_answer]
  change Except.ok (List.zipWith (· / ·) ([1e4, 2e4] : Arr) (noZero (([1, 2] : Arr).map (· / (1 : ℝ))))) = _
  norm_num [noZero]

theorem exEnv_colden : (Query.col_density "H" 1 false).answer exEnv (St.fresh none) = .ok [1, 2] := by
  rw [fresh_answer]
  rfl

/-- Witness: the temperatures of the example, after another query. -/
example : ∃ a, (Query.temp "H" 1).answer exEnv (after exEnv (St.fresh none) [.col_density "H" 1 false]) = .ok a ∧
    a[1]? = some ((2e4 : ℝ) / ((2 : ℝ) / exEnv.phys)) := by
  obtain ⟨a, h1, h2⟩ := temp_pixels exEnv_sizes (fun _ _ => rfl) (e := "H") (i := 1) (num := [1e4, 2e4]) (c := [1, 2]) (by
    simp [exEnv]) (by simp [exEnv]) none [.col_density "H" 1 false]
  exact ⟨a, h1, (h2 1 2e4 2 rfl rfl).1 (by simp [exEnv])⟩

/-- Witness: the temperature is the same before and after three other queries, one of which fails. -/
example : (Query.temp "H" 1).answer exEnv
    (after exEnv (St.fresh none) [.col_density "H" 1 false, .velocity "He" 2, .tau "H" 1 1215 true]) =
    .ok [1e4, 1e4] :=
  ((queries_independent exEnv_sizes none _ _).1).trans exEnv_temp

/-- Disagreement: a single sightline of a single pixel. The second time the same column density is asked
for, the query tries to read the savefile and fails. -/
theorem single_pixel_fails (env : Env) (x : ℝ) (e : String) (i : ℤ) (h : env.compute e i 0 false = .ok [x]) :
    (Query.col_density e i false).answer env (St.fresh none) = .ok [x] ∧
    (Query.col_density e i false).answer env (after env (St.fresh none) [.col_density e i false]) =
      .error .ioError := by
  constructor
  · rw [fresh_answer]; exact h
  · have h1 : (Query.run env (.col_density e i false) (St.fresh none)) =
        (.ok 0, (St.fresh none).store .colden ⟨e, i, none⟩ [x]) := by
      change (match ((env.compute e i 0 false), St.fresh none) with
        | (.ok a, s1) => ((Except.ok s1.heap.length : Py ℕ), s1.store .colden ⟨e, i, none⟩ a)
        | (.error e, s1) => (.error e, s1)) = _
      rw [h]; rfl
    have h2 : after env (St.fresh none) [.col_density e i false] = (St.fresh none).store .colden ⟨e, i, none⟩ [x] := by
      change (Query.run env (.col_density e i false) (St.fresh none)).2 = _
      rw [h1]
    rw [h2]
    have he : (((St.fresh none).store .colden ⟨e, i, none⟩ [x]).dicts .colden).lookup ⟨e, i, none⟩ = some 0 := by
      have := store_entry (St.fresh none) .colden .colden ⟨e, i, none⟩ ⟨e, i, none⟩ [x]
      rw [if_pos ⟨rfl, rfl⟩] at this
      exact this
    have hr : reallyLoad .colden ⟨e, i, none⟩ ((St.fresh none).store .colden ⟨e, i, none⟩ [x]) =
        (.error .ioError, (St.fresh none).store .colden ⟨e, i, none⟩ [x]) := by
      unfold reallyLoad
      rw [he]
      rfl
    rw [answer_eq]
    change valueOf (cached _ _ false _ _) = _
    unfold cached
    simp only [Bool.false_eq_true, if_false]
    rw [hr]
    rfl

/-- An object opened on the same simulation, or without its snapshot: whatever it can compute is the same,
anything else fails. -/
abbrev SameOrMissing (env2 env : Env) : Prop := env2.le env

/-- C13: a new object is asked anything and saved. An object made from the file, with or without the
snapshot, gives for each query answered before the same array, after any other queries. -/
theorem save_load {env : Env} (hs : Sizes env) (disk : Option HFile) (qs : List Query) :
    ∃ s1 f, save_file (after env (St.fresh disk) qs) = (.ok (), s1) ∧ s1.disk = some f ∧
      ∃ s2, load_savefile (some f) = .ok s2 ∧
        ∀ (env2 : Env), SameOrMissing env2 env → ∀ (qs2 : List Query), ∀ q ∈ qs, q.forced = false →
          ∀ a, q.answer env (St.fresh none) = .ok a → q.answer env2 (after env2 s2 qs2) = .ok a := by
  have hsz := sized_of_queries hs
  have hall : GoodBut (fun _ _ => True) := fun _ _ _ => trivial
  obtain ⟨h1, h2⟩ := after_spec (good := fun _ _ => True) (Env.le_refl env) hsz hall qs (fresh_inv disk)
  obtain ⟨s1, f, h3, h4, h5, h6⟩ := save_spec h1 (h2.wf (fun _ => by simp [St.fresh])) hall
    (fun g k hg _ => h2.loaded g k hg (fun hn => by simp [St.fresh, St.entry] at hn))
  obtain ⟨s2, l1, l2, l3, l4, l5⟩ := load_spec h5
  refine ⟨s1, f, h3, h4, s2, l1, ?_⟩
  intro env2 hle qs2 q hq hqf a ha
  rw [fresh_answer] at ha
  obtain ⟨i1, i2⟩ := after_spec hle hsz hall qs2 l2
  obtain ⟨-, -, -, j, -⟩ := run_spec (full := False) hle (fun h => h.elim) hsz hall i1 q
  rw [j trivial hqf (i2.keys _ _ ((l5 _ _).2 (h6 _ _ (after_present hsz hall (fresh_inv disk) hq trivial ha)))), ha]

/-- Open a savefile, ask for some arrays, save. Gives the new savefile. -/
noncomputable def session (env : Env) (f : HFile) (qs : List Query) : Py HFile :=
  match load_savefile (some f) with
  | .error e => .error e
  | .ok s =>
    match save_file (after env s qs) with
    | (.error e, _) => .error e
    | (.ok _, s1) =>
      match s1.disk with
      | some f' => .ok f'
      | none => .error .ioError

/-- A chain of sessions. -/
noncomputable def sessions (f : HFile) (ss : List (Env × List Query)) : Py HFile :=
  ss.foldlM (fun f x => session x.1 f x.2) f

theorem session_spec {env env2 : Env} (hsz : Sized env) (hle : env2.le env) {good : Grp → Key → Prop}
    (hg : GoodBut good) {f : HFile} (hf : FileOk (truth env) good f) (qs : List Query) :
    ∃ f', session env2 f qs = .ok f' ∧
      FileOk (truth env) (fun g k => good g k ∧ (Lossy g → ∃ q ∈ qs, q.slot = (g, k))) f' ∧
      ∀ g k, InFile f g k → InFile f' g k := by
  set good' : Grp → Key → Prop := fun g k => good g k ∧ (Lossy g → ∃ q ∈ qs, q.slot = (g, k)) with hg'
  obtain ⟨s, l1, l2, l3, l4, l5⟩ := load_spec hf
  obtain ⟨i1, i2⟩ := after_spec hle hsz hg qs l2
  have hgb : GoodBut good' := fun g k hl => ⟨hg g k hl, fun h => absurd h hl⟩
  have i1' : Inv (truth env) good' (after env2 s qs) := fun g k r hr =>
    ⟨(i1 g k r hr).1, fun h => (i1 g k r hr).2 h.1⟩
  obtain ⟨s1, f', h3, h4, h5, h6⟩ := save_spec i1' (i2.wf l3) hgb (by
    intro g k hgk hlo
    obtain ⟨q, hq, hsl⟩ := hgk.2 hlo
    have hqf : q.forced = false := by
      cases q with
      | col_density | tau | observer_tau =>
        simp only [Query.slot, Prod.mk.injEq] at hsl
        rcases hlo with h | h <;> rw [← hsl.1] at h <;> cases h
      | _ => rfl
    have := after_loaded hle hsz hg l2 hq (by rw [hsl]; exact hgk.1) hqf
    rw [hsl] at this
    exact this)
  refine ⟨f', ?_, h5, ?_⟩
  · unfold session
    rw [l1]
    dsimp only
    rw [h3]
    dsimp only
    rw [h4]
  · intro g k hk
    exact h6 g k (i2.keys g k ((l5 g k).2 hk))

/-- C13 (partial), saving again: through any number of sessions, each opening the last savefile (with or
without the snapshot), asking anything, and saving, every array survives, except that a temperature or
density weighted density survives only if it is asked for in each session. What is missing is
`resave_loses_temperature`. -/
theorem resave_partial {env : Env} (hs : Sizes env) (disk : Option HFile) (qs : List Query)
    (ss : List (Env × List Query)) (hss : ∀ x ∈ ss, SameOrMissing x.1 env) :
    ∃ s1 f f', save_file (after env (St.fresh disk) qs) = (.ok (), s1) ∧ s1.disk = some f ∧
      sessions f ss = .ok f' ∧
      ∃ s2, load_savefile (some f') = .ok s2 ∧
        ∀ (env2 : Env), SameOrMissing env2 env → ∀ (qs2 : List Query), ∀ q ∈ qs, q.forced = false →
          ((∃ e i, q = .temp e i ∨ q = .dens_weighted e i) → ∀ x ∈ ss, q ∈ x.2) →
          ∀ a, q.answer env (St.fresh none) = .ok a → q.answer env2 (after env2 s2 qs2) = .ok a := by
  have hsz := sized_of_queries hs
  have hall : GoodBut (fun _ _ => True) := fun _ _ _ => trivial
  obtain ⟨h1, h2⟩ := after_spec (good := fun _ _ => True) (Env.le_refl env) hsz hall qs (fresh_inv disk)
  obtain ⟨s1, f, h3, h4, h5, h6⟩ := save_spec h1 (h2.wf (fun _ => by simp [St.fresh])) hall
    (fun g k hg _ => h2.loaded g k hg (fun hn => by simp [St.fresh, St.entry] at hn))
  have H : ∀ (ss : List (Env × List Query)), (∀ x ∈ ss, SameOrMissing x.1 env) →
      ∀ (good : Grp → Key → Prop), GoodBut good → ∀ f, FileOk (truth env) good f →
      ∃ f', sessions f ss = .ok f' ∧
        FileOk (truth env) (fun g k => good g k ∧ (Lossy g → ∀ x ∈ ss, ∃ q ∈ x.2, q.slot = (g, k))) f' ∧
        ∀ g k, InFile f g k → InFile f' g k := by
    intro ss
    induction ss with
    | nil =>
      intro _ good _ f hf
      refine ⟨f, rfl, ?_, fun _ _ h => h⟩
      intro g p a hp
      obtain ⟨k, e, hk⟩ := hf g p a hp
      exact ⟨k, e, fun h => hk h.1⟩
    | cons x ss ih =>
      intro hx good hg f hf
      obtain ⟨f1, a1, a2, a3⟩ := session_spec hsz (hx x (by simp)) hg hf x.2
      obtain ⟨f2, b1, b2, b3⟩ := ih (fun y hy => hx y (by simp [hy])) _
        (fun g k hl => ⟨hg g k hl, fun h => absurd h hl⟩) f1 a2
      refine ⟨f2, ?_, ?_, fun g k h => b3 g k (a3 g k h)⟩
      · unfold sessions
        rw [List.foldlM_cons]
        change (session x.1 f x.2 >>= _) = _
        rw [a1]
        exact b1
      · intro g p a hp
        obtain ⟨k, e, hk⟩ := b2 g p a hp
        refine ⟨k, e, fun h => hk ⟨⟨h.1, fun hl => h.2 hl x (by simp)⟩, fun hl y hy => h.2 hl y (by simp [hy])⟩⟩
  obtain ⟨f', c1, c2, c3⟩ := H ss hss _ hall f h5
  obtain ⟨s2, l1, l2, l3, l4, l5⟩ := load_spec c2
  refine ⟨s1, f, f', h3, h4, c1, s2, l1, ?_⟩
  intro env2 hle qs2 q hq hqf hlossy a ha
  rw [fresh_answer] at ha
  have hgood : True ∧ (Lossy q.slot.1 → ∀ x ∈ ss, ∃ q' ∈ x.2, q'.slot = (q.slot.1, q.slot.2)) := by
    refine ⟨trivial, fun hl x hx => ⟨q, ?_, rfl⟩⟩
    refine hlossy ?_ x hx
    cases q with
    | temp e i => exact ⟨e, i, .inl rfl⟩
    | dens_weighted e i => exact ⟨e, i, .inr rfl⟩
    | _ => rcases hl with h | h <;> cases h
  have hall' : GoodBut (fun g k => True ∧ (Lossy g → ∀ x ∈ ss, ∃ q ∈ x.2, q.slot = (g, k))) :=
    fun _ _ hl => ⟨trivial, fun h => absurd h hl⟩
  obtain ⟨i1, i2⟩ := after_spec hle hsz hall' qs2 l2
  obtain ⟨-, -, -, j, -⟩ := run_spec (full := False) hle (fun h => h.elim) hsz hall' i1 q
  rw [j hgood hqf (i2.keys _ _ ((l5 _ _).2 (c3 _ _ (h6 _ _
    (after_present hsz hall (fresh_inv disk) hq trivial ha))))), ha]

/-- Disagreement: save a temperature, open the file, save it again without asking for the temperature, open
it again. The temperature is now the single number 0 instead of the array. -/
theorem resave_loses_temperature {env : Env} (hs : Sizes env) (e : String) (i : ℤ) {a : Arr}
    (ha : (Query.temp e i).answer env (St.fresh none) = .ok a) :
    ∃ s1 f f' s2, save_file (after env (St.fresh none) [.temp e i]) = (.ok (), s1) ∧ s1.disk = some f ∧
      session env f [] = .ok f' ∧ load_savefile (some f') = .ok s2 ∧
      ∀ env2, (Query.temp e i).answer env2 s2 = .ok [0] ∧ a ≠ [0] := by
  have hsz := sized_of_queries hs
  have hall : GoodBut (fun _ _ => True) := fun _ _ _ => trivial
  have ha' := ha
  rw [fresh_answer] at ha'
  obtain ⟨h1, h2⟩ := after_spec (good := fun _ _ => True) (Env.le_refl env) hsz hall [.temp e i] (fresh_inv none)
  obtain ⟨s1, f, h3, h4, h5, h6⟩ := save_spec h1 (h2.wf (fun _ => by simp [St.fresh])) hall
    (fun g k hg _ => h2.loaded g k hg (fun hn => by simp [St.fresh, St.entry] at hn))
  have hpres := h6 _ _ (after_present (q := .temp e i) hsz hall (fresh_inv none) (by simp) trivial ha')
  -- the second save
  obtain ⟨s, l1, l2, l3, l4, l5⟩ := load_spec h5
  have hent : (s.entry .temperature ⟨e, i, none⟩).isSome := (l5 _ _).2 hpres
  obtain ⟨r, hr⟩ := Option.isSome_iff_exists.1 hent
  have hld := load_placeholders l1 .temperature _ r (by decide) hr
  obtain ⟨a1, a2, a3, a4, a5⟩ := loadForSave_spec l2 hall
  have hent3 : (loadForSave s).2.entry .temperature ⟨e, i, none⟩ = some r := by
    have : (loadForSave s).2.entry .temperature = s.entry .temperature := by
      have f1 := loadAll_frame (g := .tau_obs) (g' := .temperature) (by decide) s
      have f2 := loadAll_frame (g := .tau) (g' := .temperature) (by decide) (loadAll .tau_obs s).2
      have f3 := loadAll_frame (g := .colden) (g' := .temperature) (by decide) (loadAll .tau (loadAll .tau_obs s).2).2
      have f4 := loadAll_frame (g := .velocity) (g' := .temperature) (by decide) (loadAll .colden (loadAll .tau (loadAll .tau_obs s).2).2).2
      unfold loadForSave
      rcases h1' : loadAll .tau_obs s with ⟨x1, s1⟩
      rw [h1'] at f1 f2 f3 f4
      cases x1 with
      | error e => exact f1
      | ok u =>
        dsimp only at f1 f2 f3 f4 ⊢
        rcases h2' : loadAll .tau s1 with ⟨x2, s2⟩
        rw [h2'] at f2 f3 f4
        cases x2 with
        | error e => exact f2.trans f1
        | ok u =>
          dsimp only at f2 f3 f4 ⊢
          rcases h3' : loadAll .colden s2 with ⟨x3, s3⟩
          rw [h3'] at f3 f4
          cases x3 with
          | error e => exact f3.trans (f2.trans f1)
          | ok u =>
            dsimp only at f3 f4 ⊢
            rcases h4' : loadAll .velocity s3 with ⟨x4, s4⟩
            rw [h4'] at f4
            dsimp only at f4
            cases x4 with
            | error e => cases e <;> exact f4.trans (f3.trans (f2.trans f1))
            | ok u => exact f4.trans (f3.trans (f2.trans f1))
    rw [this]; exact hr
  have hread3 : (loadForSave s).2.read r = [0] := by
    rw [read_prefix a3.heap hld.1]; exact hld.2
  have hses : session env f [] = .ok (saveGroup (loadForSave s).2) := by
    unfold session
    rw [l1]
    change (match save_file s with
      | (.error e, _) => (Except.error e : Py HFile)
      | (.ok _, s1) => match s1.disk with
        | some f' => .ok f'
        | none => .error .ioError) = _
    have : save_file s = (.ok (), { (loadForSave s).2 with disk := some (saveGroup (loadForSave s).2) }) := by
      unfold save_file
      rw [show loadForSave s = (.ok (), (loadForSave s).2) from by rw [← a1]]
    rw [this]
  have hw3 := a3.wf l3
  have hf' : FileOk (truth env) (fun g _ => ¬Lossy g) (saveGroup (loadForSave s).2) := by
    obtain ⟨f'', g1, g2, -⟩ := session_spec hsz (Env.le_refl env) hall h5 []
    rw [hses] at g1
    obtain rfl := Except.ok.inj g1
    intro g p b hp
    obtain ⟨k, hk, hk2⟩ := g2 g p b hp
    exact ⟨k, hk, fun hl => hk2 ⟨trivial, fun h => absurd h hl⟩⟩
  obtain ⟨s2, m1, m2, m3, m4, m5⟩ := load_spec hf'
  refine ⟨s1, f, _, s2, h3, h4, hses, m1, fun env2 => ⟨?_, ?_⟩⟩
  · have hin : (path ⟨e, i, none⟩, [0]) ∈ saveGroup (loadForSave s).2 .temperature :=
      (mem_saveGroup hw3 _ _ _).2 ⟨_, r, hent3, rfl, hread3.symm⟩
    have huniq : ∀ b, (path ⟨e, i, none⟩, b) ∈ saveGroup (loadForSave s).2 .temperature → b = [0] := by
      intro b hb
      obtain ⟨k, r', hr', hp, rfl⟩ := (mem_saveGroup hw3 _ _ _).1 hb
      obtain rfl := path_inj hp
      rw [hent3] at hr'
      obtain rfl := Option.some.inj hr'
      exact hread3
    obtain ⟨b, hb⟩ := mem_lookup hin
    obtain rfl := huniq b (lookup_mem hb)
    obtain ⟨r2, hr2⟩ := Option.isSome_iff_exists.1 ((m5 .temperature ⟨e, i, none⟩).2 ⟨_, hin⟩)
    have hld2 := load_placeholders m1 .temperature _ r2 (by decide) hr2
    have hrl : reallyLoad .temperature ⟨e, i, none⟩ s2 = (.ok (), s2.store .temperature ⟨e, i, none⟩ [0]) := by
      unfold reallyLoad
      rw [show (s2.dicts .temperature).lookup ⟨e, i, none⟩ = some r2 from hr2]
      dsimp only
      rw [hld2.2, if_neg (by simp), m4]
      dsimp only
      rw [hb]
    rw [answer_eq]
    change valueOf (cached .temperature ⟨e, i, none⟩ false _ s2) = _
    unfold cached
    simp only [Bool.false_eq_true, if_false]
    rw [hrl]
    dsimp only
    have he := store_entry s2 .temperature .temperature ⟨e, i, none⟩ ⟨e, i, none⟩ [0]
    rw [if_pos ⟨rfl, rfl⟩] at he
    rw [show ((s2.store .temperature ⟨e, i, none⟩ [0]).dicts .temperature).lookup ⟨e, i, none⟩ =
      some s2.heap.length from he]
    change Except.ok ((s2.store .temperature ⟨e, i, none⟩ [0]).read s2.heap.length) = _
    rw [store_read, if_pos rfl]
  · rintro rfl
    have := hs _ _ ha
    simp at this

/-- Witness: the concrete environment, saved after two queries. -/
example : ∃ s1 f, save_file (after exEnv (St.fresh none) [.temp "H" 1, .col_density "H" 1 false]) = (.ok (), s1) ∧
    s1.disk = some f ∧ ∃ s2, load_savefile (some f) = .ok s2 ∧
      (Query.temp "H" 1).answer exEnv s2 = .ok [1e4, 1e4] := by
  obtain ⟨s1, f, h1, h2, s2, h3, h4⟩ := save_load exEnv_sizes none [.temp "H" 1, .col_density "H" 1 false]
  exact ⟨s1, f, h1, h2, s2, h3, h4 exEnv (Env.le_refl _) [] _ (by simp) rfl _ exEnv_temp⟩

/-- Opening the file without the snapshot is one of the cases. -/
theorem noSnapshot_le (env : Env) : SameOrMissing env.noSnapshot env :=
  ⟨fun _ _ _ _ => .inr ⟨_, rfl⟩, fun _ _ _ => .inr ⟨_, rfl⟩, rfl, rfl, rfl, rfl⟩

/-- Witness: the temperature is in the file even where it cannot be computed. -/
example : ∃ s1 f, save_file (after exEnv (St.fresh none) [.temp "H" 1, .col_density "H" 1 false]) = (.ok (), s1) ∧
    s1.disk = some f ∧ ∃ s2, load_savefile (some f) = .ok s2 ∧
      (Query.temp "H" 1).answer exEnv.noSnapshot (after exEnv.noSnapshot s2 [.velocity "H" 1]) =
        .ok [1e4, 1e4] := by
  obtain ⟨s1, f, h1, h2, s2, h3, h4⟩ := save_load exEnv_sizes none [.temp "H" 1, .col_density "H" 1 false]
  exact ⟨s1, f, h1, h2, s2, h3, h4 _ (noSnapshot_le _) _ _ (by simp) rfl _ exEnv_temp⟩

/-- One sightline of one pixel. -/
example := single_pixel_fails { exEnv with compute := fun _ _ _ _ => .ok [3] } 3 "H" 1 rfl

/-- Saving, loading without the snapshot, and saving again. -/
example := resave_partial exEnv_sizes none [.temp "H" 1, .col_density "H" 1 false] [(exEnv, [.temp "H" 1]), (exEnv, [.velocity "H" 1, .temp "H" 1])]
  (by
    intro x hx
    simp only [List.mem_cons, List.not_mem_nil, or_false] at hx
    rcases hx with rfl | rfl <;> exact Env.le_refl _)

end Verif.Props
