import Verif.Lemmas.EmissionSave
import Verif.Props.Store

/-!
C107: saving and loading emission spectra. `Sizes env`: every array the snapshot can yield has more than one element.
-/

namespace Verif.Props.EmissionSave
open Verif Verif.Store Verif.EmissionSave Verif.Props

/-- A new object, with some stellar fluxes. -/
def newObject (disk : Option HFile) (stellar : List (List String × Arr)) : ESt := ⟨St.fresh disk, stellar, none⟩

/-- Open a savefile in a new process, ask for some arrays, save. Gives the new savefile. -/
noncomputable def session (env : Env) (f : EFile) (qs : List Query) : Py EFile := do
  let s ← EmissionSave.load_savefile f
  let s1 ← EmissionSave.save_file (s.after env qs)
  match s1.saved with
  | some f' => pure f'
  | none => throw .ioError

/-- A chain of sessions. -/
noncomputable def sessions (f : EFile) (ss : List (Env × List Query)) : Py EFile :=
  ss.foldlM (fun f x => session x.1 f x.2) f

theorem load_ok {f : EFile} {s : St} (h : Store.load_savefile (some f.main) = .ok s) :
    EmissionSave.load_savefile f = .ok ⟨s, [], some f.stellar⟩ := by
  unfold EmissionSave.load_savefile
  rw [h]
  rfl

theorem eall : EGoodBut (fun _ _ => True) := fun _ _ _ => trivial

theorem first_save {env : Env} (hsz : Sized env) (disk : Option HFile) {d : List (List String × Arr)}
    (hd : ∀ p ∈ d, 1 < p.2.length) (qs : List Query) :
    ∃ s1 f, EmissionSave.save_file ((newObject disk d).after env qs) = .ok s1 ∧ s1.saved = some ⟨f, d⟩ ∧
      FileOk (truth env) (fun _ _ => True) f ∧
      ∀ q ∈ qs, ∀ a, expected env q.slot.1 q.slot.2 = .ok a → InFile f q.slot.1 q.slot.2 := by
  obtain ⟨h1, h2⟩ := after_spec_of (good := fun _ _ => True) (Env.le_refl env) hsz eall.colden qs (fresh_inv disk)
  obtain ⟨s1, f, h3, h4, -, h5, h6⟩ := EmissionSave.save_spec h1 (h2.wf (fun _ => by simp [St.fresh])) eall
    (fun g k hg _ => h2.loaded g k hg (fun hn => by simp [St.fresh, St.entry] at hn)) hd none
  exact ⟨s1, f, h3, h4, h5, fun q hq a ha => h6 _ _ (after_present hsz (fun _ _ _ => trivial) (fresh_inv disk) hq trivial ha)⟩

/-- C107: a new emission object is asked anything and saved. The file holds the stellar fluxes, and an object made from it, with
or without the snapshot, gives for each query answered before the same array, after any other queries. -/
theorem emission_save_load {env : Env} (hs : Sizes env) (disk : Option HFile) {d : List (List String × Arr)}
    (hd : ∀ p ∈ d, 1 < p.2.length) (qs : List Query) :
    ∃ s1 f, EmissionSave.save_file ((newObject disk d).after env qs) = .ok s1 ∧ s1.saved = some f ∧ f.stellar = d ∧
      ∃ s2, EmissionSave.load_savefile f = .ok s2 ∧
        ∀ (env2 : Env), SameOrMissing env2 env → ∀ (qs2 : List Query), ∀ q ∈ qs, q.forced = false →
          ∀ a, q.answer env (St.fresh none) = .ok a → q.answer env2 (s2.after env2 qs2).base = .ok a := by
  have hsz := sized_of_queries hs
  obtain ⟨s1, f, h3, h4, h5, h6⟩ := first_save hsz disk hd qs
  obtain ⟨s2, l1, l2, l3, l4, l5⟩ := load_spec h5
  refine ⟨s1, ⟨f, d⟩, h3, h4, rfl, _, load_ok l1, ?_⟩
  intro env2 hle qs2 q hq hqf a ha
  rw [fresh_answer] at ha
  obtain ⟨i1, i2⟩ := after_spec_of hle hsz eall.colden qs2 l2
  obtain ⟨-, -, -, j, -⟩ := run_spec_of (full := False) hle (fun h => h.elim) hsz eall.colden i1 q
  exact (j trivial hqf (i2.keys _ _ ((l5 _ _).2 (h6 q hq a ha)))).trans ha

theorem esession_spec {env env2 : Env} (hsz : Sized env) (hle : env2.le env) {good : Grp → Key → Prop}
    (hg : EGoodBut good) {f : EFile} (hf : FileOk (truth env) good f.main) (qs : List Query) :
    ∃ f', session env2 f qs = .ok f' ∧ f'.stellar = [] ∧
      FileOk (truth env) (fun g k => good g k ∧ (ELossy g → ∃ q ∈ qs, q.slot = (g, k))) f'.main ∧
      ∀ g k, InFile f.main g k → InFile f'.main g k := by
  set good' : Grp → Key → Prop := fun g k => good g k ∧ (ELossy g → ∃ q ∈ qs, q.slot = (g, k)) with hg'
  obtain ⟨s, l1, l2, l3, l4, l5⟩ := load_spec hf
  obtain ⟨i1, i2⟩ := after_spec_of hle hsz hg.colden qs l2
  have hgb : EGoodBut good' := fun g k hl => ⟨hg g k hl, fun h => absurd h hl⟩
  have i1' : Inv (truth env) good' (after env2 s qs) := fun g k r hr =>
    ⟨(i1 g k r hr).1, fun h => (i1 g k r hr).2 h.1⟩
  obtain ⟨s1, f', h3, h4, -, h5, h6⟩ := EmissionSave.save_spec (d := []) i1' (i2.wf l3) hgb (by
    intro g k hgk hlo
    obtain ⟨q, hq, hsl⟩ := hgk.2 hlo
    have hqf : q.forced = false := by
      cases q with
      | col_density | tau | observer_tau =>
        simp only [Query.slot, Prod.mk.injEq] at hsl
        rcases hlo with h | h | h <;> rw [← hsl.1] at h <;> cases h
      | _ => rfl
    have := after_loaded_of hle hsz hg.colden l2 hq (by rw [hsl]; exact hgk.1) hqf
    rw [hsl] at this
    exact this) (by simp) (some f.stellar)
  refine ⟨⟨f', []⟩, ?_, rfl, h5, fun g k hk => h6 g k (i2.keys g k ((l5 g k).2 hk))⟩
  unfold session
  rw [load_ok l1]
  change (EmissionSave.save_file ⟨after env2 s qs, [], some f.stellar⟩ >>= _) = _
  rw [h3]
  change (match s1.saved with
    | some f' => (Except.ok f' : Py EFile)
    | none => .error .ioError) = _
  rw [h4]

/-- C107 (partial), saving again: through any number of sessions, each opening the last savefile (with or without the snapshot),
asking anything, and saving, every array survives, except that a temperature, density weighted density or velocity survives only
if it is asked for in each session. What is missing is `emission_resave_loses_velocity` and `stellar_dropped`. -/
theorem emission_resave_partial {env : Env} (hs : Sizes env) (disk : Option HFile) {d : List (List String × Arr)}
    (hd : ∀ p ∈ d, 1 < p.2.length) (qs : List Query) (ss : List (Env × List Query)) (hss : ∀ x ∈ ss, SameOrMissing x.1 env) :
    ∃ s1 f f', EmissionSave.save_file ((newObject disk d).after env qs) = .ok s1 ∧ s1.saved = some f ∧
      sessions f ss = .ok f' ∧
      ∃ s2, EmissionSave.load_savefile f' = .ok s2 ∧
        ∀ (env2 : Env), SameOrMissing env2 env → ∀ (qs2 : List Query), ∀ q ∈ qs, q.forced = false →
          ((∃ e i, q = .temp e i ∨ q = .dens_weighted e i ∨ q = .velocity e i) → ∀ x ∈ ss, q ∈ x.2) →
          ∀ a, q.answer env (St.fresh none) = .ok a → q.answer env2 (s2.after env2 qs2).base = .ok a := by
  have hsz := sized_of_queries hs
  obtain ⟨s1, f, h3, h4, h5, h6⟩ := first_save hsz disk hd qs
  have H : ∀ (ss : List (Env × List Query)), (∀ x ∈ ss, SameOrMissing x.1 env) →
      ∀ (good : Grp → Key → Prop), EGoodBut good → ∀ f : EFile, FileOk (truth env) good f.main →
      ∃ f', sessions f ss = .ok f' ∧
        FileOk (truth env) (fun g k => good g k ∧ (ELossy g → ∀ x ∈ ss, ∃ q ∈ x.2, q.slot = (g, k))) f'.main ∧
        ∀ g k, InFile f.main g k → InFile f'.main g k := by
    intro ss
    induction ss with
    | nil =>
      intro _ good _ f hf
      refine ⟨f, rfl, ?_, fun _ _ h => h⟩
      intro g p a hp
      obtain ⟨k, e, hk⟩ := hf g p a hp
      exact ⟨k, e, fun h => hk h.1⟩
    | cons x ss ih =>
      intro hx good hg f hf
      obtain ⟨f1, a1, -, a2, a3⟩ := esession_spec hsz (hx x (by simp)) hg hf x.2
      obtain ⟨f2, b1, b2, b3⟩ := ih (fun y hy => hx y (by simp [hy])) _
        (fun g k hl => ⟨hg g k hl, fun h => absurd h hl⟩) f1 a2
      refine ⟨f2, ?_, ?_, fun g k h => b3 g k (a3 g k h)⟩
      · unfold sessions
        rw [List.foldlM_cons]
        change (session x.1 f x.2 >>= _) = _
        rw [a1]
        exact b1
      · intro g p a hp
        obtain ⟨k, e, hk⟩ := b2 g p a hp
        refine ⟨k, e, fun h => hk ⟨⟨h.1, fun hl => h.2 hl x (by simp)⟩, fun hl y hy => h.2 hl y (by simp [hy])⟩⟩
  obtain ⟨f', c1, c2, c3⟩ := H ss hss _ eall ⟨f, d⟩ h5
  obtain ⟨s2, l1, l2, l3, l4, l5⟩ := load_spec c2
  refine ⟨s1, ⟨f, d⟩, f', h3, h4, c1, _, load_ok l1, ?_⟩
  intro env2 hle qs2 q hq hqf hlossy a ha
  rw [fresh_answer] at ha
  have hgood : True ∧ (ELossy q.slot.1 → ∀ x ∈ ss, ∃ q' ∈ x.2, q'.slot = (q.slot.1, q.slot.2)) := by
    refine ⟨trivial, fun hl x hx => ⟨q, ?_, rfl⟩⟩
    refine hlossy ?_ x hx
    cases q with
    | temp e i => exact ⟨e, i, .inl rfl⟩
    | dens_weighted e i => exact ⟨e, i, .inr (.inl rfl)⟩
    | velocity e i => exact ⟨e, i, .inr (.inr rfl)⟩
    | _ => rcases hl with h | h | h <;> cases h
  have hall' : EGoodBut (fun g k => True ∧ (ELossy g → ∀ x ∈ ss, ∃ q ∈ x.2, q.slot = (g, k))) :=
    fun _ _ hl => ⟨trivial, fun h => absurd h hl⟩
  obtain ⟨i1, i2⟩ := after_spec_of hle hsz hall'.colden qs2 l2
  obtain ⟨-, -, -, j, -⟩ := run_spec_of (full := False) hle (fun h => h.elim) hsz hall'.colden i1 q
  exact (j hgood hqf (i2.keys _ _ ((l5 _ _).2 (c3 _ _ (h6 q hq a ha))))).trans ha

/-- Disagreement: save a velocity, open the file, save it again without asking for the velocity, open it again. The velocity is
now the single number 0 instead of the array: `save_file` loads `colden` where it should load `velocity`. The `save_file` of
`Spectra` keeps the array, `resave_partial`. -/
theorem emission_resave_loses_velocity {env : Env} (hs : Sizes env) (e : String) (i : ℤ) {a : Arr}
    (ha : (Query.velocity e i).answer env (St.fresh none) = .ok a) :
    ∃ s1 f f' s2, EmissionSave.save_file ((newObject none []).after env [.velocity e i]) = .ok s1 ∧ s1.saved = some f ∧
      session env f [] = .ok f' ∧ EmissionSave.load_savefile f' = .ok s2 ∧
      ∀ env2, (Query.velocity e i).answer env2 s2.base = .ok [0] ∧ a ≠ [0] := by
  have hsz := sized_of_queries hs
  have ha' := ha
  rw [fresh_answer] at ha'
  obtain ⟨s1, f, h3, h4, h5, h6⟩ := first_save hsz none (d := []) (by simp) [.velocity e i]
  have hpres := h6 (.velocity e i) (by simp) a ha'
  obtain ⟨s, l1, l2, l3, l4, l5⟩ := load_spec h5
  obtain ⟨r, hr⟩ := Option.isSome_iff_exists.1 ((l5 _ _).2 hpres)
  have hld := load_placeholders l1 .velocity _ r (by decide) hr
  obtain ⟨a1, a2, a3, a4, -, a6⟩ := EmissionSave.loadForSave_spec l2 eall
  have hent3 : (EmissionSave.loadForSave s).2.entry .velocity ⟨e, i, none⟩ = some r := by rw [a6]; exact hr
  have hread3 : (EmissionSave.loadForSave s).2.read r = [0] := by
    rw [read_prefix a3.heap hld.1]; exact hld.2
  have hses : session env ⟨f, []⟩ [] = .ok ⟨saveGroup (EmissionSave.loadForSave s).2, []⟩ := by
    unfold session
    rw [load_ok l1]
    change (EmissionSave.save_file ⟨s, [], some []⟩ >>= _) = _
    have : EmissionSave.save_file ⟨s, [], some []⟩ = .ok ⟨{ (EmissionSave.loadForSave s).2 with
        disk := some (saveGroup (EmissionSave.loadForSave s).2) }, [], some []⟩ := by
      unfold EmissionSave.save_file
      change (match EmissionSave.loadForSave s with
        | (.error e, _) => (Except.error e : Py ESt)
        | (.ok _, b) => .ok ⟨{ b with disk := some (saveGroup b) }, [], some []⟩) = _
      rw [show EmissionSave.loadForSave s = (.ok (), (EmissionSave.loadForSave s).2) from by rw [← a1]]
    rw [this]
    rfl
  have hw3 := a3.wf l3
  have hf' : FileOk (truth env) (fun g _ => ¬ELossy g) (saveGroup (EmissionSave.loadForSave s).2) := by
    obtain ⟨f'', g1, -, g2, -⟩ := esession_spec (f := ⟨f, []⟩) hsz (Env.le_refl env) eall h5 []
    rw [hses] at g1
    obtain rfl := Except.ok.inj g1
    intro g p b hp
    obtain ⟨k, hk, hk2⟩ := g2 g p b hp
    exact ⟨k, hk, fun hl => hk2 ⟨trivial, fun h => absurd h hl⟩⟩
  obtain ⟨s2, m1, m2, m3, m4, m5⟩ := load_spec hf'
  refine ⟨s1, ⟨f, []⟩, ⟨_, []⟩, _, h3, h4, hses, load_ok m1, fun env2 => ⟨?_, ?_⟩⟩
  · have hin : (path ⟨e, i, none⟩, [0]) ∈ saveGroup (EmissionSave.loadForSave s).2 .velocity :=
      (mem_saveGroup hw3 _ _ _).2 ⟨_, r, hent3, rfl, hread3.symm⟩
    have huniq : ∀ b, (path ⟨e, i, none⟩, b) ∈ saveGroup (EmissionSave.loadForSave s).2 .velocity → b = [0] := by
      intro b hb
      obtain ⟨k, r', hr', hp, rfl⟩ := (mem_saveGroup hw3 _ _ _).1 hb
      obtain rfl := path_inj hp
      rw [hent3] at hr'
      obtain rfl := Option.some.inj hr'
      exact hread3
    obtain ⟨b, hb⟩ := mem_lookup hin
    obtain rfl := huniq b (lookup_mem hb)
    obtain ⟨r2, hr2⟩ := Option.isSome_iff_exists.1 ((m5 .velocity ⟨e, i, none⟩).2 ⟨_, hin⟩)
    have hld2 := load_placeholders m1 .velocity _ r2 (by decide) hr2
    have hrl : reallyLoad .velocity ⟨e, i, none⟩ s2 = (.ok (), s2.store .velocity ⟨e, i, none⟩ [0]) := by
      unfold reallyLoad
      rw [show (s2.dicts .velocity).lookup ⟨e, i, none⟩ = some r2 from hr2]
      dsimp only
      rw [hld2.2, if_neg (by simp), m4]
      dsimp only
      rw [hb]
    rw [answer_eq]
    change valueOf (cached .velocity ⟨e, i, none⟩ false _ s2) = _
    unfold cached
    simp only [Bool.false_eq_true, if_false]
    rw [hrl]
    dsimp only
    have he := store_entry s2 .velocity .velocity ⟨e, i, none⟩ ⟨e, i, none⟩ [0]
    rw [if_pos ⟨rfl, rfl⟩] at he
    rw [show ((s2.store .velocity ⟨e, i, none⟩ [0]).dicts .velocity).lookup ⟨e, i, none⟩ =
      some s2.heap.length from he]
    change Except.ok ((s2.store .velocity ⟨e, i, none⟩ [0]).read s2.heap.length) = _
    rw [store_read, if_pos rfl]
  · have := hsz _ _ a ha'
    rintro rfl
    simp at this

/-- Disagreement: the stellar fluxes of a savefile are gone once it is opened and saved again in a new process, whatever is asked
in between. -/
theorem stellar_dropped {env : Env} (hs : Sizes env) (disk : Option HFile) {d : List (List String × Arr)}
    (hd : ∀ p ∈ d, 1 < p.2.length) (qs : List Query) (x : Env × List Query) (ss : List (Env × List Query))
    (hss : ∀ y ∈ x :: ss, SameOrMissing y.1 env) :
    ∃ s1 f f', EmissionSave.save_file ((newObject disk d).after env qs) = .ok s1 ∧ s1.saved = some f ∧ f.stellar = d ∧
      sessions f (x :: ss) = .ok f' ∧ f'.stellar = [] := by
  have hsz := sized_of_queries hs
  obtain ⟨s1, f, h3, h4, h5, h6⟩ := first_save hsz disk hd qs
  have H : ∀ (ss : List (Env × List Query)), (∀ x ∈ ss, SameOrMissing x.1 env) →
      ∀ (good : Grp → Key → Prop), EGoodBut good → ∀ f : EFile, FileOk (truth env) good f.main → f.stellar = [] →
      ∃ f', sessions f ss = .ok f' ∧ f'.stellar = [] := by
    intro ss
    induction ss with
    | nil => intro _ _ _ f _ h; exact ⟨f, rfl, h⟩
    | cons x ss ih =>
      intro hx good hg f hf _
      obtain ⟨f1, a1, a0, a2, -⟩ := esession_spec hsz (hx x (by simp)) hg hf x.2
      obtain ⟨f2, b1, b2⟩ := ih (fun y hy => hx y (by simp [hy])) _ (fun g k hl => ⟨hg g k hl, fun h => absurd h hl⟩) f1 a2 a0
      refine ⟨f2, ?_, b2⟩
      unfold sessions
      rw [List.foldlM_cons]
      change (session x.1 f x.2 >>= _) = _
      rw [a1]
      exact b1
  obtain ⟨f1, a1, a0, a2, -⟩ := esession_spec (f := ⟨f, d⟩) hsz (hss x (by simp)) eall h5 x.2
  obtain ⟨f2, b1, b2⟩ := H ss (fun y hy => hss y (by simp [hy])) _ (fun g k hl => ⟨trivial, fun h => absurd h hl⟩) f1 a2 a0
  refine ⟨s1, ⟨f, d⟩, f2, h3, h4, rfl, ?_, b2⟩
  unfold sessions
  rw [List.foldlM_cons]
  change (session x.1 ⟨f, d⟩ x.2 >>= _) = _
  rw [a1]
  exact b1

/-- Disagreement: with a single sightline, whose stellar flux is one number, a new object cannot be saved; nothing is written. -/
theorem stellar_single (env : Env) (qs : List Query) (k : List String) (x : ℝ) (d : List (List String × Arr)) :
    EmissionSave.save_file ((newObject none ((k, [x]) :: d)).after env qs) = .error .ioError := by
  unfold EmissionSave.save_file
  have : loadStellar ((newObject none ((k, [x]) :: d)).after env qs).file
      ((newObject none ((k, [x]) :: d)).after env qs).stellar = .error .ioError := by
    change loadStellar none ((k, [x]) :: d) = _
    unfold loadStellar
    rw [List.mapM_cons]
    simp
    rfl
  rw [this]

/-! Witnesses: a snapshot with velocities. -/

/-- A simulation of one species with velocities. -/
noncomputable def velEnv : Env := { exEnv with
  weighted := fun g e i => if e = "H" ∧ i = 1 ∧ g = .velocity then .ok [1e4, 2e4] else .error .keyError }

theorem velEnv_sizes : Sizes velEnv := by
  intro q a ha
  rw [fresh_answer] at ha
  have hw : ∀ g e i, (do
      let num ← velEnv.weighted g e i
      let c ← velEnv.compute e i 0 false
      velEnv.divide g num (noZero (c.map (· / velEnv.phys)))) = .ok a → 1 < a.length := by
    intro g e i h
    change ((if e = "H" ∧ i = 1 ∧ g = .velocity then (Except.ok [1e4, 2e4] : Py Arr) else .error .keyError) >>= _)
      = _ at h
    by_cases hx : e = "H" ∧ i = 1 ∧ g = .velocity
    · rw [if_pos hx] at h
      obtain ⟨rfl, rfl, -⟩ := hx
      change (Except.ok (List.zipWith (· / ·) ([1e4, 2e4] : Arr) (noZero (([1, 2] : Arr).map (· / exEnv.phys)))) : Py Arr) = _ at h
      obtain rfl := Except.ok.inj h
      simp [noZero]
    · rw [if_neg hx] at h
      cases h
  cases q with
  | col_density e i f => exact exEnv_sizes (.col_density e i f) a (by rw [fresh_answer]; exact ha)
  | tau e i l f => exact exEnv_sizes (.tau e i l f) a (by rw [fresh_answer]; exact ha)
  | observer_tau e i f => exact exEnv_sizes (.observer_tau e i f) a (by rw [fresh_answer]; exact ha)
  | velocity e i => exact hw _ e i ha
  | temp e i => exact hw _ e i ha
  | dens_weighted e i => exact hw _ e i ha

theorem velEnv_velocity : (Query.velocity "H" 1).answer velEnv (St.fresh none) = .ok [1e4, 1e4] := by
  rw [fresh_answer]
  change Except.ok (List.zipWith (· / ·) ([1e4, 2e4] : Arr) (noZero (([1, 2] : Arr).map (· / (1 : ℝ))))) = _
  norm_num [noZero]

/-- Witness: the velocity of the example is lost. -/
example : ∃ s1 f f' s2, EmissionSave.save_file ((newObject none []).after velEnv [.velocity "H" 1]) = .ok s1 ∧ s1.saved = some f ∧
    session velEnv f [] = .ok f' ∧ EmissionSave.load_savefile f' = .ok s2 ∧
    ∀ env2, (Query.velocity "H" 1).answer env2 s2.base = .ok [0] ∧ ([1e4, 1e4] : Arr) ≠ [0] :=
  emission_resave_loses_velocity velEnv_sizes "H" 1 velEnv_velocity

/-- Witness: it survives if it is asked for in the session in between, and so does the column density, asked for or not. -/
example : ∃ s1 f f' s2, EmissionSave.save_file ((newObject none [(["B", "2.5"], [3, 4])]).after velEnv
      [.velocity "H" 1, .col_density "H" 1 false]) = .ok s1 ∧ s1.saved = some f ∧
    sessions f [(velEnv, [.velocity "H" 1])] = .ok f' ∧ EmissionSave.load_savefile f' = .ok s2 ∧
    (Query.velocity "H" 1).answer velEnv s2.base = .ok [1e4, 1e4] ∧ (Query.col_density "H" 1 false).answer velEnv s2.base = .ok [1, 2] := by
  obtain ⟨s1, f, f', h1, h2, h3, s2, h4, h5⟩ := emission_resave_partial velEnv_sizes none (d := [(["B", "2.5"], [3, 4])]) (by simp)
    [.velocity "H" 1, .col_density "H" 1 false] [(velEnv, [.velocity "H" 1])] (by
      intro x hx
      simp only [List.mem_singleton] at hx
      subst hx
      exact Env.le_refl _)
  refine ⟨s1, f, f', s2, h1, h2, h3, h4, ?_, ?_⟩
  · exact h5 velEnv (Env.le_refl _) [] (.velocity "H" 1) (by simp) rfl (fun _ x hx => by
      simp only [List.mem_singleton] at hx
      subst hx
      simp) _ velEnv_velocity
  · exact h5 velEnv (Env.le_refl _) [] (.col_density "H" 1 false) (by simp) rfl (by
      rintro ⟨e, i, h | h | h⟩ <;> cases h) _ (by rw [fresh_answer]; rfl)

/-! The theorems for every sequence of queries, at work on the environment of the examples. -/

example := emission_save_load velEnv_sizes none (d := [(["B", "2.5"], [3, 4])]) (by simp) [.velocity "H" 1, .col_density "H" 1 false]

example := stellar_dropped velEnv_sizes none (d := [(["B", "2.5"], [3, 4])]) (by simp) [.velocity "H" 1] (velEnv, []) []
  (by
    intro y hy
    rw [List.mem_singleton] at hy
    subst hy
    exact Env.le_refl _)

end Verif.Props.EmissionSave
