import Verif.Model.Shared
import Verif.Lemmas.Store

/-!
Lemmas on objects which share a savefile.
-/

namespace Verif.Shared
open Verif.Store

/-- The dictionaries which are loaded before saving; velocities only if `V`. -/
def Kept (V : Prop) (g : Grp) : Prop := g = .tau_obs ∨ g = .tau ∨ g = .colden ∨ (V ∧ g = .velocity)

/-- The kept arrays in memory are right, or placeholders. -/
structure Soft (T : Truth) (V : Prop) (s : St) : Prop where
  wf : Wf s
  ent : ∀ g k r, s.entry g k = some r → r < s.heap.length ∧
    (Kept V g → ((s.read r).length ≤ 1 ∧ (g = .velocity → s.disk.isSome)) ∨ (T g k = some (s.read r) ∧ 1 < (s.read r).length))

/-- The kept arrays in the savefile are right. -/
def DiskOk (T : Truth) (V : Prop) (d : Option HFile) : Prop := ∀ f, d = some f → FileOk T (fun g _ => Kept V g) f

/-- Nothing is forgotten and the savefile is the same. -/
structure Later (s s' : St) : Prop where
  disk : s'.disk = s.disk
  keys : ∀ g k, (s.entry g k).isSome → (s'.entry g k).isSome

theorem Later.refl (s : St) : Later s s := ⟨rfl, fun _ _ h => h⟩

theorem Later.trans {s s' s'' : St} (h : Later s s') (h' : Later s' s'') : Later s s'' :=
  ⟨h'.disk.trans h.disk, fun g k e => h'.keys g k (h.keys g k e)⟩

theorem store_later (s : St) (g : Grp) (k : Key) (a : Arr) : Later s (s.store g k a) :=
  ⟨rfl, fun g' k' h => by rw [store_entry]; split <;> first | rfl | exact h⟩

variable {T : Truth} {V : Prop}

theorem store_soft {s : St} (h : Soft T V s) {g : Grp} {k : Key} {a : Arr}
    (ha : Kept V g → T g k = some a ∧ 1 < a.length) : Soft T V (s.store g k a) := by
  refine ⟨store_wf h.wf g k a, ?_⟩
  intro g' k' r hr
  have hlen : (s.store g k a).heap.length = s.heap.length + 1 := by simp [St.store]
  rw [store_entry] at hr
  by_cases hk : g' = g ∧ k' = k
  · rw [if_pos hk] at hr
    obtain rfl := Option.some.inj hr
    obtain ⟨rfl, rfl⟩ := hk
    refine ⟨by omega, fun hg => .inr ?_⟩
    rw [store_read, if_pos rfl]
    exact ha hg
  · rw [if_neg hk] at hr
    obtain ⟨h1, h2⟩ := h.ent g' k' r hr
    refine ⟨by omega, fun hg => ?_⟩
    rw [store_read, if_neg h1.ne]
    exact h2 hg

/-- `_really_load_array`: what it gives is right. -/
theorem reallyLoad_soft {s : St} (h : Soft T V s) (hd : DiskOk T V s.disk) (g : Grp) (k : Key) :
    Soft T V (reallyLoad g k s).2 ∧ Later s (reallyLoad g k s).2 ∧
    ((reallyLoad g k s).1 = .ok () → ∃ r, (reallyLoad g k s).2.entry g k = some r ∧
      (Kept V g → T g k = some ((reallyLoad g k s).2.read r) ∧ 1 < ((reallyLoad g k s).2.read r).length)) ∧
    (∀ f, s.disk = some f → Kept V g → (s.entry g k).isSome → InFile f g k → (reallyLoad g k s).1 = .ok ()) ∧
    ((reallyLoad g k s).1 = .error .ioError → s.disk = none ∧ ∃ r, s.entry g k = some r ∧ (s.read r).length ≤ 1) := by
  unfold reallyLoad
  cases hr : (s.dicts g).lookup k with
  | none =>
    exact ⟨h, Later.refl _, fun h => (by cases h), fun _ _ _ h => (by unfold St.entry at h; rw [hr] at h; cases h), fun h => by cases h⟩
  | some r =>
    dsimp only
    by_cases hl : 1 < (s.read r).length
    · rw [if_pos hl]
      refine ⟨h, Later.refl _, fun _ => ⟨r, hr, fun hg => ?_⟩, fun _ _ _ _ _ => rfl, fun h => by cases h⟩
      rcases (h.ent g k r hr).2 hg with h1 | h1
      · exact absurd h1.1 (by omega)
      · exact h1
    · rw [if_neg hl]
      cases hdk : s.disk with
      | none => exact ⟨h, Later.refl _, fun h => (by cases h), fun _ h => (by cases h), fun _ => ⟨rfl, r, hr, by omega⟩⟩
      | some f =>
        dsimp only
        cases hlk : (f g).lookup (path k) with
        | none =>
          refine ⟨h, Later.refl _, fun h => (by cases h), fun f' hf' _ _ hin => ?_, fun h => by cases h⟩
          cases hf'
          obtain ⟨a, ha⟩ := hin
          obtain ⟨b, hb⟩ := mem_lookup ha
          rw [hlk] at hb
          cases hb
        | some a =>
          have ha : Kept V g → T g k = some a ∧ 1 < a.length := by
            intro hg
            obtain ⟨k', hk', hT⟩ := hd f hdk g _ a (lookup_mem hlk)
            rw [path_inj hk']
            exact hT hg
          refine ⟨store_soft h ha, store_later s g k a, fun _ => ⟨s.heap.length, ?_, fun hg => ?_⟩, fun _ _ _ _ _ => rfl,
            fun h => by cases h⟩
          · rw [store_entry, if_pos ⟨rfl, rfl⟩]
          · rw [store_read, if_pos rfl]
            exact ha hg

/-- A computation which gives right arrays. -/
def CompSoft (T : Truth) (V : Prop) (g : Grp) (k : Key) (comp : St → Py Arr × St) : Prop :=
  ∀ s, Soft T V s → DiskOk T V s.disk → Soft T V (comp s).2 ∧ Later s (comp s).2 ∧
    ∀ a, (comp s).1 = .ok a → Kept V g → T g k = some a ∧ 1 < a.length

theorem cached_soft {s : St} (h : Soft T V s) (hd : DiskOk T V s.disk) (g : Grp) (k : Key) (force : Bool)
    {comp : St → Py Arr × St} (hc : CompSoft T V g k comp) :
    Soft T V (cached g k force comp s).2 ∧ Later s (cached g k force comp s).2 ∧
    (Kept V g → ∀ a, valueOf (cached g k force comp s) = .ok a → T g k = some a ∧ 1 < a.length) ∧
    (∀ f, force = false → s.disk = some f → Kept V g → (s.entry g k).isSome → InFile f g k →
      ∃ a, valueOf (cached g k force comp s) = .ok a) := by
  have hre : ∀ s1, Soft T V s1 → Later s s1 →
      let x : Py ℕ × St := match comp s1 with
        | (.ok a, s2) => (.ok s2.heap.length, s2.store g k a)
        | (.error e, s2) => (.error e, s2)
      Soft T V x.2 ∧ Later s x.2 ∧ (Kept V g → ∀ a, valueOf x = .ok a → T g k = some a ∧ 1 < a.length) := by
    intro s1 hi he
    obtain ⟨c1, c2, c3⟩ := hc s1 hi (he.disk ▸ hd)
    revert c1 c2 c3
    rcases comp s1 with ⟨ra, s2⟩
    intro c1 c2 c3
    cases ra with
    | error e => exact ⟨c1, he.trans c2, fun _ a ha => by cases ha⟩
    | ok a =>
      refine ⟨store_soft c1 (c3 a rfl), (he.trans c2).trans (store_later s2 g k a), fun hg b hb => ?_⟩
      change Except.ok ((s2.store g k a).read s2.heap.length) = _ at hb
      rw [store_read, if_pos rfl] at hb
      cases hb
      exact c3 a rfl hg
  unfold cached
  cases force with
  | true =>
    obtain ⟨x1, x2, x3⟩ := hre s h (Later.refl _)
    exact ⟨x1, x2, x3, fun _ hf => by cases hf⟩
  | false =>
    simp only [Bool.false_eq_true, if_false]
    obtain ⟨l1, l2, l3, l4, -⟩ := reallyLoad_soft h hd g k
    revert l1 l2 l3 l4
    rcases reallyLoad g k s with ⟨res, s1⟩
    intro l1 l2 l3 l4
    cases res with
    | ok u =>
      dsimp only
      obtain ⟨r, hr, hv⟩ := l3 rfl
      have hr' : (s1.dicts g).lookup k = some r := hr
      rw [hr']
      refine ⟨l1, l2, fun hg a ha => ?_, fun _ _ _ _ _ _ => ⟨s1.read r, rfl⟩⟩
      cases ha
      exact hv hg
    | error e =>
      have hno : ∀ f, s.disk = some f → Kept V g → (s.entry g k).isSome → InFile f g k → False := by
        intro f h1 h2 h3 h4
        cases l4 f h1 h2 h3 h4
      by_cases hke : e = .keyError
      · subst hke
        obtain ⟨x1, x2, x3⟩ := hre s1 l1 l2
        exact ⟨x1, x2, x3, fun f _ h1 h2 h3 h4 => (hno f h1 h2 h3 h4).elim⟩
      · cases e <;> first
          | exact absurd rfl hke
          | exact ⟨l1, l2, fun _ _ ha => (by cases ha), fun f _ h1 h2 h3 h4 => (hno f h1 h2 h3 h4).elim⟩

theorem compSoft_const {g : Grp} {k : Key} {x : Py Arr} (h : ∀ a, x = .ok a → T g k = some a ∧ 1 < a.length) :
    CompSoft T V g k (fun s => (x, s)) := fun s hs _ => ⟨hs, Later.refl _, fun a ha _ => h a ha⟩

theorem compute_soft {env env2 : Env} (hle : env2.le env) (hsz : Sized env) {g : Grp} {k : Key} {e : String} {i l : ℤ} {b : Bool}
    (hx : expected env g k = env.compute e i l b) :
    CompSoft (truth env) V g k (fun s => (env2.compute e i l b, s)) := by
  refine compSoft_const fun a ha => ?_
  have : expected env g k = .ok a := by
    rw [hx]
    rcases hle.compute e i l b with h | ⟨x, h⟩
    · rw [← h, ha]
    · rw [h] at ha; cases ha
  exact ⟨(truth_iff env g k a).2 this, hsz g k a this⟩

theorem massWeighted_soft {env env2 : Env} (hle : env2.le env) (hsz : Sized env) (g : Grp) (e : String) (i : ℤ)
    (hgr : g = .velocity ∨ g = .temperature ∨ g = .density_weight_density) :
    CompSoft (truth env) V g ⟨e, i, none⟩ (massWeighted env2 g e i) := by
  have hex : expected env g ⟨e, i, none⟩ = (do
      let num ← env.weighted g e i
      let c ← env.compute e i 0 false
      env.divide g num (noZero (c.map (· / env.phys)))) := by
    rcases hgr with rfl | rfl | rfl <;> rfl
  intro s hs hd
  unfold massWeighted
  cases hw2 : env2.weighted g e i with
  | error x => exact ⟨hs, Later.refl _, fun a ha => by cases ha⟩
  | ok num =>
    have hw1 : env.weighted g e i = .ok num := by
      rcases hle.weighted g e i with h | ⟨x, h⟩
      · rw [← h, hw2]
      · rw [h] at hw2; cases hw2
    obtain ⟨c1, c2, c3, -⟩ := cached_soft hs hd .colden ⟨e, i, none⟩ false
      (compute_soft (env2 := env2) hle hsz (g := .colden) (k := ⟨e, i, none⟩) (e := e) (i := i) (l := 0) (b := false) rfl)
    have c3' := c3 (.inr (.inr (.inl rfl)))
    unfold get_density get_col_density
    revert c1 c2 c3'
    rcases cached .colden ⟨e, i, none⟩ false (fun s => (env2.compute e i 0 false, s)) s with ⟨res, s1⟩
    intro c1 c2 c3'
    cases res with
    | error x => exact ⟨c1, c2, fun a ha => by cases ha⟩
    | ok r =>
      refine ⟨c1, c2, fun a ha _ => ?_⟩
      have hc := (truth_iff env _ _ _).1 (c3' _ rfl).1
      have hc' : env.compute e i 0 false = .ok (s1.read r) := hc
      have : expected env g ⟨e, i, none⟩ = .ok a := by
        rw [hex, hw1, hc']
        change env.divide g num (noZero ((s1.read r).map (· / env.phys))) = _
        change env2.divide g num (noZero ((s1.read r).map (· / env2.phys))) = _ at ha
        rw [← hle.divide, ← hle.phys]
        exact ha
      exact ⟨(truth_iff env _ _ a).2 this, hsz _ _ a this⟩

/-- Any query of an object. -/
theorem run_soft {env env2 : Env} (hle : env2.le env) (hsz : Sized env) {s : St} (h : Soft (truth env) V s)
    (hd : DiskOk (truth env) V s.disk) (q : Query) :
    Soft (truth env) V (q.run env2 s).2 ∧ Later s (q.run env2 s).2 ∧
    (Kept V q.slot.1 → ∀ a, q.answer env2 s = .ok a → truth env q.slot.1 q.slot.2 = some a ∧ 1 < a.length) ∧
    (∀ f, q.forced = false → s.disk = some f → Kept V q.slot.1 → (s.entry q.slot.1 q.slot.2).isSome → InFile f q.slot.1 q.slot.2 →
      ∃ a, q.answer env2 s = .ok a) := by
  cases q with
  | col_density e i f => exact cached_soft h hd _ _ f (compute_soft hle hsz rfl)
  | tau e i l f => exact cached_soft h hd _ _ f (compute_soft hle hsz rfl)
  | observer_tau e i f =>
    refine cached_soft h hd _ _ f (compSoft_const fun a ha => ?_)
    have : expected env .tau_obs ⟨e, i, none⟩ = .ok a := by
      rcases observer_or hle (full := False) (fun h => h.elim) e i with h | ⟨-, x, h⟩
      · exact h.symm.trans ha
      · rw [h] at ha; cases ha
    exact ⟨(truth_iff env _ _ a).2 this, hsz _ _ a this⟩
  | velocity e i => exact cached_soft h hd _ _ false (massWeighted_soft hle hsz _ e i (.inl rfl))
  | temp e i => exact cached_soft h hd _ _ false (massWeighted_soft hle hsz _ e i (.inr (.inl rfl)))
  | dens_weighted e i => exact cached_soft h hd _ _ false (massWeighted_soft hle hsz _ e i (.inr (.inr rfl)))

/-- The array of a key is in memory, if the key is there. -/
def InMemory (s : St) (g : Grp) (k : Key) : Prop := ∀ r, s.entry g k = some r → 1 < (s.read r).length

/-- What is in memory stays. -/
theorem store_inMemory {s : St} (h : Soft T V s) {g g' : Grp} {k k' : Key} {a : Arr} (hm : InMemory s g' k')
    (ha : g' = g ∧ k' = k → 1 < a.length) : InMemory (s.store g k a) g' k' := by
  intro r hr
  rw [store_entry] at hr
  rw [store_read]
  by_cases hk : g' = g ∧ k' = k
  · rw [if_pos hk] at hr
    obtain rfl := Option.some.inj hr
    rw [if_pos rfl]
    exact ha hk
  · rw [if_neg hk] at hr
    rw [if_neg (h.ent g' k' r hr).1.ne]
    exact hm r hr

theorem reallyLoad_inMemory {s : St} (h : Soft T V s) {g g' : Grp} {k k' : Key} (hm : InMemory s g' k') :
    InMemory (reallyLoad g k s).2 g' k' := by
  unfold reallyLoad
  cases hr : (s.dicts g).lookup k with
  | none => exact hm
  | some r =>
    dsimp only
    by_cases hl : 1 < (s.read r).length
    · rw [if_pos hl]; exact hm
    · rw [if_neg hl]
      cases s.disk with
      | none => exact hm
      | some f =>
        dsimp only
        cases (f g).lookup (path k) with
        | none => exact hm
        | some a =>
          refine store_inMemory h hm ?_
          rintro ⟨rfl, rfl⟩
          exact absurd (hm r hr) hl

theorem loadAll_soft {s : St} (h : Soft T V s) (hd : DiskOk T V s.disk) (g : Grp) :
    Soft T V (loadAll g s).2 ∧ Later s (loadAll g s).2 ∧
    (∀ g' k', InMemory s g' k' → InMemory (loadAll g s).2 g' k') ∧
    ((loadAll g s).1 = .ok () → Kept V g → ∀ k, InMemory (loadAll g s).2 g k) ∧
    ((loadAll g s).1 = .error .ioError → s.disk = none ∧ ∃ s1 k r, Soft T V s1 ∧ s1.disk = none ∧ s1.entry g k = some r ∧ (s1.read r).length ≤ 1) := by
  have herr : ∀ (ks : List Key) (e : PyErr) (s1 : St), ks.foldl (fun acc k => match acc with
        | ((.ok _ : Py Unit), s1) => reallyLoad g k s1
        | (.error e, s1) => (.error e, s1)) ((.error e : Py Unit), s1) = (.error e, s1) := by
    intro ks e s1
    induction ks with
    | nil => rfl
    | cons k ks ih => exact ih
  have H : ∀ (ks : List Key) (s1 : St), Soft T V s1 → Later s s1 → (∀ g' k', (s1.entry g' k').isSome = (s.entry g' k').isSome) →
      let x := ks.foldl (fun acc k => match acc with
        | ((.ok _ : Py Unit), s1) => reallyLoad g k s1
        | (.error e, s1) => (.error e, s1)) ((.ok () : Py Unit), s1)
      Soft T V x.2 ∧ Later s x.2 ∧ (∀ g' k', InMemory s1 g' k' → InMemory x.2 g' k') ∧
        (x.1 = .ok () → Kept V g → ∀ k ∈ ks, InMemory x.2 g k) ∧
        (∀ g' k', (x.2.entry g' k').isSome = (s.entry g' k').isSome) ∧
        (x.1 = .error .ioError → s.disk = none ∧ ∃ s1 k r, Soft T V s1 ∧ s1.disk = none ∧ s1.entry g k = some r ∧ (s1.read r).length ≤ 1) := by
    intro ks
    induction ks with
    | nil => intro s1 i e hk; exact ⟨i, e, fun _ _ h => h, fun _ _ k hk => (by cases hk), hk, fun h => by cases h⟩
    | cons k ks ih =>
      intro s1 i e hk
      have hd1 : DiskOk T V s1.disk := e.disk ▸ hd
      obtain ⟨l1, l2, l3, -, l5⟩ := reallyLoad_soft i hd1 g k
      have hk1 := fun g' k' => (reallyLoad_keys g k s1 g' k').trans (hk g' k')
      have hm : ∀ g' k', InMemory s1 g' k' → InMemory (reallyLoad g k s1).2 g' k' := fun g' k' h => reallyLoad_inMemory i h
      rw [List.foldl_cons]
      dsimp only
      revert l1 l2 l3 l5 hk1 hm
      rcases reallyLoad g k s1 with ⟨res, s2⟩
      intro l1 l2 l3 l5 hk1 hm
      cases res with
      | error x =>
        rw [herr]
        refine ⟨l1, e.trans l2, hm, fun h => (by cases h), hk1, fun h => ?_⟩
        obtain ⟨h1, r, h2, h3⟩ := l5 h
        exact ⟨e.disk ▸ h1, s1, k, r, i, h1, h2, h3⟩
      | ok u =>
        obtain ⟨x1, x2, x3, x4, x5, x6⟩ := ih s2 l1 (e.trans l2) hk1
        refine ⟨x1, x2, fun g' k' h => x3 g' k' (hm g' k' h), fun h1 h2 k' hk' => ?_, x5, x6⟩
        rcases List.mem_cons.1 hk' with rfl | hk'
        · refine x3 g k' fun r hr => ?_
          obtain ⟨r', hr', hv⟩ := l3 rfl
          rw [hr] at hr'
          cases hr'
          exact (hv h2).2
        · exact x4 h1 h2 k' hk'
  obtain ⟨x1, x2, x3, x4, x5, x6⟩ := H ((s.dicts g).map Prod.fst) s h (Later.refl _) (fun _ _ => rfl)
  refine ⟨x1, x2, x3, fun h1 h2 k r hr => x4 h1 h2 k ?_ r hr, x6⟩
  have hk' : (s.entry g k).isSome := by
    rw [← x5]
    change ((loadAll g s).2.entry g k).isSome = true
    rw [hr]; rfl
  obtain ⟨r', hr'⟩ := Option.isSome_iff_exists.1 hk'
  exact List.mem_map.2 ⟨(k, r'), lookup_mem hr', rfl⟩

/-- Before writing: everything kept is in memory. -/
theorem loadForSave_soft {s : St} (h : Soft T V s) (hd : DiskOk T V s.disk) :
    Soft T V (loadForSave s).2 ∧ Later s (loadForSave s).2 ∧
    ((loadForSave s).1 = .ok () → ∀ g k, Kept V g → InMemory (loadForSave s).2 g k) := by
  obtain ⟨a1, a2, a3, a4, -⟩ := loadAll_soft h hd .tau_obs
  unfold loadForSave
  revert a1 a2 a3 a4
  rcases loadAll .tau_obs s with ⟨ra, sa⟩
  intro a1 a2 a3 a4
  cases ra with
  | error e => exact ⟨a1, a2, fun h => by cases h⟩
  | ok _ =>
    dsimp only
    have hda : DiskOk T V sa.disk := a2.disk ▸ hd
    obtain ⟨b1, b2, b3, b4, -⟩ := loadAll_soft a1 hda .tau
    revert b1 b2 b3 b4
    rcases loadAll .tau sa with ⟨rb, sb⟩
    intro b1 b2 b3 b4
    cases rb with
    | error e => exact ⟨b1, a2.trans b2, fun h => by cases h⟩
    | ok _ =>
      dsimp only
      have hdb : DiskOk T V sb.disk := b2.disk ▸ hda
      obtain ⟨c1, c2, c3, c4, -⟩ := loadAll_soft b1 hdb .colden
      revert c1 c2 c3 c4
      rcases loadAll .colden sb with ⟨rc, sc⟩
      intro c1 c2 c3 c4
      cases rc with
      | error e => exact ⟨c1, (a2.trans b2).trans c2, fun h => by cases h⟩
      | ok _ =>
        dsimp only
        have hdc : DiskOk T V sc.disk := c2.disk ▸ hdb
        obtain ⟨d1, d2, d3, d4, d5⟩ := loadAll_soft c1 hdc .velocity
        revert d1 d2 d3 d4 d5
        rcases loadAll .velocity sc with ⟨rd, sd⟩
        intro d1 d2 d3 d4 d5
        have hrest : ∀ g k, g = .tau_obs ∨ g = .tau ∨ g = .colden → InMemory sd g k := by
          rintro g k (rfl | rfl | rfl)
          · exact d3 _ _ (c3 _ _ (b3 _ _ (a4 rfl (.inl rfl) k)))
          · exact d3 _ _ (c3 _ _ (b4 rfl (.inr (.inl rfl)) k))
          · exact d3 _ _ (c4 rfl (.inr (.inr (.inl rfl))) k)
        have hall := ((a2.trans b2).trans c2).trans d2
        have hvel : (rd = .ok () ∨ rd = .error .ioError) → ∀ g k, Kept V g → InMemory sd g k := by
          rintro hrd g k (hg | hg | hg | ⟨hV, rfl⟩)
          · exact hrest g k (.inl hg)
          · exact hrest g k (.inr (.inl hg))
          · exact hrest g k (.inr (.inr hg))
          · rcases hrd with rfl | rfl
            · exact d4 rfl (.inr (.inr (.inr ⟨hV, rfl⟩))) k
            · obtain ⟨-, s1, k1, r1, e1, e2, e3, e4⟩ := d5 rfl
              rcases (e1.ent _ k1 r1 e3).2 (.inr (.inr (.inr ⟨hV, rfl⟩))) with h | h
              · have := h.2 rfl
                rw [e2] at this
                cases this
              · exact absurd h.2 (by omega)
        cases rd with
        | ok _ => exact ⟨d1, hall, fun _ => hvel (.inl rfl)⟩
        | error e =>
          by_cases he : e = .ioError
          · subst he
            exact ⟨d1, hall, fun _ => hvel (.inr rfl)⟩
          · cases e <;> first
              | exact absurd rfl he
              | exact ⟨d1, hall, fun h => by cases h⟩

/-- `save_file`: the new file is right. -/
theorem save_soft {s : St} (h : Soft T V s) (hd : DiskOk T V s.disk) :
    Soft T V (save_file s).2 ∧ DiskOk T V (save_file s).2.disk ∧ (s.disk.isSome → (save_file s).2.disk.isSome) ∧
    (∀ g k, (s.entry g k).isSome → ((save_file s).2.entry g k).isSome) ∧
    ((save_file s).2.disk = s.disk ∨ ∃ f, (save_file s).2.disk = some f ∧ ∀ g k, (s.entry g k).isSome → InFile f g k) := by
  obtain ⟨a1, a2, a3⟩ := loadForSave_soft h hd
  unfold save_file
  revert a1 a2 a3
  rcases loadForSave s with ⟨ra, s1⟩
  intro a1 a2 a3
  cases ra with
  | error e =>
    exact ⟨a1, a2.disk ▸ hd, fun h => (by rw [a2.disk]; exact h), a2.keys, .inl a2.disk⟩
  | ok _ =>
    dsimp only
    refine ⟨⟨a1.wf, fun g k r hr => ⟨(a1.ent g k r hr).1, fun hg => ?_⟩⟩, ?_, fun _ => rfl, a2.keys, .inr ⟨_, rfl, ?_⟩⟩
    · rcases (a1.ent g k r hr).2 hg with h1 | h1
      · exact .inl ⟨h1.1, fun _ => rfl⟩
      · exact .inr h1
    · intro f hf g p a hpa
      cases hf
      obtain ⟨k, r, hr, rfl, rfl⟩ := (mem_saveGroup a1.wf g p a).1 hpa
      refine ⟨k, rfl, fun hg => ?_⟩
      rcases (a1.ent g k r hr).2 hg with h1 | h1
      · exact absurd (a3 rfl g k hg r hr) (by omega)
      · exact h1
    · intro g k hk
      obtain ⟨r, hr⟩ := Option.isSome_iff_exists.1 (a2.keys g k hk)
      exact ⟨_, (mem_saveGroup a1.wf g _ _).2 ⟨k, r, hr, rfl, rfl⟩⟩

/-- Another savefile. -/
theorem soft_disk {s : St} (h : Soft T V s) {d : Option HFile} (hv : V → s.disk.isSome → d.isSome) : Soft T V { s with disk := d } := by
  refine ⟨h.wf, fun g k r hr => ⟨(h.ent g k r hr).1, fun hg => ?_⟩⟩
  rcases (h.ent g k r hr).2 hg with h1 | h1
  · refine .inl ⟨h1.1, fun hgv => ?_⟩
    rcases hg with h2 | h2 | h2 | h2
    · rw [hgv] at h2; cases h2
    · rw [hgv] at h2; cases h2
    · rw [hgv] at h2; cases h2
    · exact hv h2.1 (h1.2 hgv)
  · exact .inr h1

theorem load_soft {f : HFile} (hf : FileOk T (fun g _ => Kept V g) f) :
    ∃ s, load_savefile (some f) = .ok s ∧ Soft T V s ∧ s.disk = some f ∧ ∀ g k, (s.entry g k).isSome ↔ InFile f g k := by
  obtain ⟨s, l1, l2, l3, l4, l5⟩ := load_spec hf
  refine ⟨s, l1, ⟨l3, fun g k r hr => ⟨(l2 g k r hr).1, fun hg => ?_⟩⟩, l4, l5⟩
  obtain ⟨a, b1, b2, b3⟩ := (l2 g k r hr).2 hg
  rcases b3 with b3 | ⟨b3, -⟩
  · right; rw [b3]; exact ⟨b1, b2⟩
  · left; exact ⟨b3, fun _ => by rw [l4]; rfl⟩

theorem fresh_soft (d : Option HFile) : Soft T V (St.fresh d) := ⟨fun _ => by simp [St.fresh], fun g k r h => by cases h⟩

theorem step_load {w : World} {env : Env} {s : St} (h : load_savefile w.disk = .ok s) :
    step w (.load env) = { w with objs := w.objs ++ [(env, s)] } := by
  simp only [step, h]

theorem step_load_fails {w : World} {env : Env} {e : PyErr} (h : load_savefile w.disk = .error e) : step w (.load env) = w := by
  simp only [step, h]

theorem step_ask {w : World} {i : ℕ} {q : Query} {env : Env} {s : St} (h : w.objs[i]? = some (env, s)) :
    step w (.ask i q) = { w with objs := w.objs.set i (env, (q.run env (seenBy w s)).2) } := by
  simp only [step, h]

theorem step_save {w : World} {i : ℕ} {env : Env} {s : St} (h : w.objs[i]? = some (env, s)) :
    step w (.save i) = { objs := w.objs.set i (env, (save_file (seenBy w s)).2), disk := (save_file (seenBy w s)).2.disk } := by
  simp only [step, h]

theorem step_saveFails {w : World} {i : ℕ} {env : Env} {s s1 : St} (h : w.objs[i]? = some (env, s))
    (hl : loadForSave (seenBy w s) = (.ok (), s1)) : step w (.saveFails i) = { objs := w.objs.set i (env, s1), disk := none } := by
  simp only [step, h, hl]

theorem step_saveFails_load {w : World} {i : ℕ} {env : Env} {s s1 : St} {e : PyErr} (h : w.objs[i]? = some (env, s))
    (hl : loadForSave (seenBy w s) = (.error e, s1)) : step w (.saveFails i) = { w with objs := w.objs.set i (env, s1) } := by
  simp only [step, h, hl]

theorem step_nobody {w : World} {i : ℕ} (h : w.objs[i]? = none) :
    (∀ q, step w (.ask i q) = w) ∧ step w (.save i) = w ∧ step w (.saveFails i) = w := by
  simp only [step, h, implies_true, and_self]

end Verif.Shared
