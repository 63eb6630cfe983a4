import Verif.Lemmas.Shared
import Verif.Props.Store

/-!
C117: objects which share a savefile.
-/

namespace Verif.Props.Shared
open Verif Verif.Store Verif.Shared

/-! Specification. -/

/-- Every object that is made has the simulation and the sightlines of `env`, with or without the snapshot. -/
def OfOne (env : Env) (es : List Event) : Prop :=
  ∀ ev ∈ es, ∀ env2, ev = .create env2 ∨ ev = .load env2 → SameOrMissing env2 env

/-- No save fails after the old file was moved away. -/
def NoFailure (es : List Event) : Prop := ∀ i, Event.saveFails i ∉ es

/-- All objects are made from the savefile. -/
def OnlyLoads (es : List Event) : Prop := ∀ env2, Event.create env2 ∉ es

/-- The query asks for a column density or an optical depth. -/
def Absorption : Query → Prop
  | .col_density _ _ _ | .tau _ _ _ _ | .observer_tau _ _ _ => True
  | _ => False

/-- The query asks for a velocity. -/
def Velocity : Query → Prop
  | .velocity _ _ => True
  | _ => False

/-- The array of the query is computed anew. -/
def Recomputes : Query → Query → Prop
  | .col_density e i _, q => q = .col_density e i true
  | .tau e i l _, q => q = .tau e i l true
  | .observer_tau e i _, q => q = .observer_tau e i true
  | _, _ => False

/-- The user does not ask for the array to be computed anew. -/
def Plain : Query → Prop
  | .col_density _ _ f | .tau _ _ _ f | .observer_tau _ _ f => f = false
  | _ => True

theorem plain_forced {q : Query} (h : Plain q) : q.forced = false := by
  cases q <;> first | exact h | rfl

/-! The invariant of a history. -/

structure WInv (env : Env) (V : Prop) (w : World) : Prop where
  disk : DiskOk (truth env) V w.disk
  objs : ∀ o ∈ w.objs, o.1.le env ∧ Soft (truth env) V o.2 ∧ (V → o.2.disk.isSome → w.disk.isSome)

theorem seen_soft {env : Env} {V : Prop} {w : World} (h : WInv env V w) {i : ℕ} {env2 : Env} {s : St}
    (hi : w.objs[i]? = some (env2, s)) : env2.le env ∧ Soft (truth env) V (seenBy w s) := by
  obtain ⟨h1, h2, h3⟩ := h.objs _ (List.mem_of_getElem? hi)
  exact ⟨h1, soft_disk h2 h3⟩

theorem mem_set {α : Type} {l : List α} {i : ℕ} {x y : α} (h : y ∈ l.set i x) : y ∈ l ∨ y = x := List.mem_or_eq_of_mem_set h

theorem step_inv {env : Env} {V : Prop} (hsz : Sized env) {w : World} (h : WInv env V w) {ev : Event}
    (hev : ∀ env2, ev = .create env2 ∨ ev = .load env2 → env2.le env) (hno : V → ∀ i, ev ≠ .saveFails i) :
    WInv env V (step w ev) := by
  cases ev with
  | create env2 =>
    refine ⟨h.disk, fun o ho => ?_⟩
    rcases List.mem_append.1 ho with ho | ho
    · exact h.objs o ho
    · rw [List.mem_singleton] at ho
      subst ho
      exact ⟨hev env2 (.inl rfl), fresh_soft _, fun _ h => h⟩
  | load env2 =>
    cases hd : w.disk with
    | none => rw [step_load_fails (e := .ioError) (by rw [hd]; rfl)]; exact h
    | some f =>
      obtain ⟨s, l1, l2, l3, -⟩ := load_soft (h.disk f hd)
      rw [step_load (by rw [hd]; exact l1)]
      refine ⟨h.disk, fun o ho => ?_⟩
      rcases List.mem_append.1 ho with ho | ho
      · exact h.objs o ho
      · rw [List.mem_singleton] at ho
        subst ho
        refine ⟨hev env2 (.inr rfl), l2, fun _ _ => ?_⟩
        change w.disk.isSome = true
        rw [hd]; rfl
  | ask i q =>
    cases hi : w.objs[i]? with
    | none => rw [(step_nobody hi).1]; exact h
    | some o =>
      obtain ⟨env2, s⟩ := o
      rw [step_ask hi]
      obtain ⟨hle, hs⟩ := seen_soft h hi
      obtain ⟨r1, r2, -⟩ := run_soft hle hsz hs h.disk q
      refine ⟨h.disk, fun o ho => ?_⟩
      rcases mem_set ho with ho | rfl
      · exact h.objs o ho
      · exact ⟨hle, r1, fun _ h => by rw [r2.disk] at h; exact h⟩
  | save i =>
    cases hi : w.objs[i]? with
    | none => rw [(step_nobody hi).2.1]; exact h
    | some o =>
      obtain ⟨env2, s⟩ := o
      rw [step_save hi]
      obtain ⟨hle, hs⟩ := seen_soft h hi
      obtain ⟨r1, r2, r3, -, -⟩ := save_soft hs h.disk
      refine ⟨r2, fun o ho => ?_⟩
      rcases mem_set ho with ho | rfl
      · obtain ⟨o1, o2, o3⟩ := h.objs o ho
        exact ⟨o1, o2, fun hV hh => r3 (o3 hV hh)⟩
      · exact ⟨hle, r1, fun _ h => h⟩
  | saveFails i =>
    have hV : ¬ V := fun hV => hno hV i rfl
    cases hi : w.objs[i]? with
    | none => rw [(step_nobody hi).2.2]; exact h
    | some o =>
      obtain ⟨env2, s⟩ := o
      obtain ⟨hle, hs⟩ := seen_soft h hi
      obtain ⟨r1, -, -⟩ := loadForSave_soft hs h.disk
      cases hld : loadForSave (seenBy w s) with | mk res s1 => _
      rw [hld] at r1
      cases res with
      | error e =>
        rw [step_saveFails_load hi hld]
        refine ⟨h.disk, fun o ho => ?_⟩
        rcases mem_set ho with ho | rfl
        · exact h.objs o ho
        · exact ⟨hle, r1, fun hv => absurd hv hV⟩
      | ok _ =>
        rw [step_saveFails hi hld]
        refine ⟨fun f hf => (by cases hf), fun o ho => ?_⟩
        rcases mem_set ho with ho | rfl
        · obtain ⟨o1, o2, -⟩ := h.objs o ho
          exact ⟨o1, o2, fun hv => absurd hv hV⟩
        · exact ⟨hle, r1, fun hv => absurd hv hV⟩

theorem play_inv {env : Env} {V : Prop} (hsz : Sized env) {w : World} (h : WInv env V w) {es : List Event} (hes : OfOne env es)
    (hno : V → NoFailure es) : WInv env V (play w es) := by
  induction es generalizing w with
  | nil => exact h
  | cons ev es ih =>
    refine ih (step_inv hsz h (fun env2 he => hes ev (by simp) env2 he) ?_) (fun e he => hes e (by simp [he]))
      (fun hV i hi => hno hV i (by simp [hi]))
    rintro hV i rfl
    exact hno hV i (by simp)

theorem empty_inv (env : Env) (V : Prop) : WInv env V Shared.empty :=
  ⟨fun f h => (by cases h), fun o h => (by cases h)⟩

theorem answer_right {env : Env} {V : Prop} (hsz : Sized env) {w : World} (h : WInv env V w) {i : ℕ} {q : Query} (hq : Kept V q.slot.1)
    {a : Arr} (ha : answer w i q = some (.ok a)) : q.answer env (St.fresh none) = .ok a := by
  unfold answer at ha
  cases hi : w.objs[i]? with
  | none => rw [hi] at ha; cases ha
  | some o =>
    obtain ⟨env2, s⟩ := o
    rw [hi] at ha
    obtain ⟨hle, hs⟩ := seen_soft h hi
    obtain ⟨-, -, r3, -⟩ := run_soft hle hsz hs h.disk q
    rw [fresh_answer]
    exact (truth_iff env _ _ a).1 (r3 hq a (Option.some.inj ha)).1

/-- C117: objects of one simulation with the same sightlines share a savefile. In whatever order they are made, from the snapshot or from the
file, are asked, save, and fail to save, a column density or an optical depth that any of them returns is the one which a new object
computes. -/
theorem shared_right {env : Env} (hs : Sizes env) {es : List Event} (hes : OfOne env es) {i : ℕ} {q : Query} (hq : Absorption q)
    {a : Arr} (h : answer (play Shared.empty es) i q = some (.ok a)) : q.answer env (St.fresh none) = .ok a := by
  have hsz := sized_of_queries hs
  refine answer_right (V := False) hsz (play_inv hsz (empty_inv env False) hes (fun h => h.elim)) ?_ h
  cases q with
  | col_density => exact .inr (.inr (.inl rfl))
  | tau => exact .inr (.inl rfl)
  | observer_tau => exact .inl rfl
  | _ => exact hq.elim

/-- C117: and so is a velocity, if no save fails half-way. What is missing is `velocity_lost`. -/
theorem shared_velocity_partial {env : Env} (hs : Sizes env) {es : List Event} (hes : OfOne env es) (hno : NoFailure es) {i : ℕ}
    {q : Query} (hq : Velocity q) {a : Arr} (h : answer (play Shared.empty es) i q = some (.ok a)) :
    q.answer env (St.fresh none) = .ok a := by
  have hsz := sized_of_queries hs
  refine answer_right (V := True) hsz (play_inv hsz (empty_inv env True) hes (fun _ => hno)) ?_ h
  cases q with
  | velocity => exact .inr (.inr (.inr ⟨trivial, rfl⟩))
  | _ => exact hq.elim

/-! Arrays which stay in the file. -/

/-- The key is in the file and in all objects. -/
structure HasKey (g : Grp) (k : Key) (w : World) : Prop where
  disk : ∃ f, w.disk = some f ∧ InFile f g k
  objs : ∀ o ∈ w.objs, (o.2.entry g k).isSome

theorem step_key {env : Env} {V : Prop} (hsz : Sized env) {w : World} (h : WInv env V w) {g : Grp} {k : Key} (hk : HasKey g k w)
    {ev : Event} (hc : ∀ env2, ev ≠ .create env2) (hno : ∀ i, ev ≠ .saveFails i) : HasKey g k (step w ev) := by
  obtain ⟨f, hf, hin⟩ := hk.disk
  cases ev with
  | create env2 => exact absurd rfl (hc env2)
  | saveFails i => exact absurd rfl (hno i)
  | load env2 =>
    obtain ⟨s, l1, -, -, l4⟩ := load_soft (h.disk f hf)
    rw [step_load (by rw [hf]; exact l1)]
    refine ⟨⟨f, hf, hin⟩, fun o ho => ?_⟩
    rcases List.mem_append.1 ho with ho | ho
    · exact hk.objs o ho
    · rw [List.mem_singleton] at ho
      subst ho
      exact (l4 g k).2 hin
  | ask i q =>
    cases hi : w.objs[i]? with
    | none => rw [(step_nobody hi).1]; exact hk
    | some o =>
      obtain ⟨env2, s⟩ := o
      rw [step_ask hi]
      obtain ⟨hle, hs⟩ := seen_soft h hi
      obtain ⟨-, r2, -⟩ := run_soft hle hsz hs h.disk q
      refine ⟨⟨f, hf, hin⟩, fun o ho => ?_⟩
      rcases mem_set ho with ho | rfl
      · exact hk.objs o ho
      · exact r2.keys g k (hk.objs _ (List.mem_of_getElem? hi))
  | save i =>
    cases hi : w.objs[i]? with
    | none => rw [(step_nobody hi).2.1]; exact hk
    | some o =>
      obtain ⟨env2, s⟩ := o
      rw [step_save hi]
      obtain ⟨hle, hs⟩ := seen_soft h hi
      obtain ⟨-, -, -, r4, r5⟩ := save_soft hs h.disk
      have hks : ((seenBy w s).entry g k).isSome := hk.objs _ (List.mem_of_getElem? hi)
      refine ⟨?_, fun o ho => ?_⟩
      · rcases r5 with r5 | ⟨f', r5, r6⟩
        · exact ⟨f, r5.trans hf, hin⟩
        · exact ⟨f', r5, r6 g k hks⟩
      · rcases mem_set ho with ho | rfl
        · exact hk.objs o ho
        · exact r4 g k hks

/-- Without the snapshot an array can only come from the file. -/
theorem noSnapshot_infile {env : Env} (hsz : Sized env) {f : HFile} (hf : FileOk (truth env) (fun g _ => Kept True g) f) {q : Query}
    (hp : Plain q) (hq : Absorption q ∨ Velocity q) {s : St} (hl : load_savefile (some f) = .ok s) {a : Arr} (hlines : ∀ e i, env.lines e i ≠ .ok [])
    (h : q.answer env.noSnapshot { s with disk := some f } = .ok a) : InFile f q.slot.1 q.slot.2 := by
  obtain ⟨s', l1, l2, l3, l4⟩ := load_soft hf
  rw [hl] at l1
  cases l1
  have hs : ({ s with disk := some f } : St) = s := by rw [← l3]
  rw [hs] at h
  rw [← l4]
  by_contra hn
  have hn' : (s.dicts q.slot.1).lookup q.slot.2 = none := by
    cases he : (s.dicts q.slot.1).lookup q.slot.2 with
    | none => rfl
    | some r => exact absurd (by unfold St.entry; rw [he]; rfl) hn
  have key : ∀ (g : Grp) (k : Key) (comp : St → Py Arr × St) (e : PyErr), (s.dicts g).lookup k = none → comp s = (.error e, s) →
      valueOf (cached g k false comp s) = .error e := by
    intro g k comp e h1 h2
    have h3 : reallyLoad g k s = (.error .keyError, s) := by unfold reallyLoad; rw [h1]
    unfold cached
    simp only [Bool.false_eq_true, if_false]
    rw [h3]
    dsimp only
    rw [h2]
    rfl
  rw [answer_eq] at h
  cases q with
  | col_density e i f =>
    cases hp
    have := key .colden _ (fun s => (env.noSnapshot.compute e i 0 false, s)) .attributeError hn' rfl
    exact absurd (h.symm.trans this) (by simp)
  | tau e i l f =>
    cases hp
    have := key .tau _ (fun s => (env.noSnapshot.compute e i l true, s)) .attributeError hn' rfl
    exact absurd (h.symm.trans this) (by simp)
  | observer_tau e i f =>
    cases hp
    have hob : ∃ x, observer env.noSnapshot e i = .error x := by
      unfold observer
      change ∃ x, (env.lines e i >>= fun ls => _) = _
      cases hle : env.lines e i with
      | error x => exact ⟨x, rfl⟩
      | ok ls =>
        cases ls with
        | nil => exact absurd hle (hlines e i)
        | cons l ls =>
          refine ⟨.attributeError, ?_⟩
          change ((l :: ls).mapM (fun l => env.noSnapshot.compute e i l true) >>= fun taus => pure (env.noSnapshot.pick taus)) = _
          rw [List.mapM_cons]
          rfl
    obtain ⟨x, hx⟩ := hob
    have := key .tau_obs _ (fun s => (observer env.noSnapshot e i, s)) x hn' (by rw [hx])
    exact absurd (h.symm.trans this) (by simp)
  | velocity e i =>
    have := key .velocity _ (massWeighted env.noSnapshot .velocity e i) .attributeError hn' rfl
    exact absurd (h.symm.trans this) (by simp)
  | temp => rcases hq with hq | hq <;> exact hq.elim
  | dens_weighted => rcases hq with hq | hq <;> exact hq.elim

/-- C117: an array that can be had from the savefile alone stays so. While objects are only made from the file, in whatever order they are
asked and save, every one of them answers with that array, with or without the snapshot. -/
theorem opened_answers {env : Env} (hs : Sizes env) (hlines : ∀ e i, env.lines e i ≠ .ok []) {es0 : List Event} (h0 : OfOne env es0)
    (hno0 : NoFailure es0) {q : Query} (hp : Plain q) (hq : Absorption q ∨ Velocity q) {a : Arr}
    (hfile : answer (play (reopened (play Shared.empty es0)) [.load env.noSnapshot]) 0 q = some (.ok a))
    {es : List Event} (hes : OfOne env es) (hno : NoFailure es) (hload : OnlyLoads es) {i : ℕ}
    (hi : i < (play (reopened (play Shared.empty es0)) es).objs.length) :
    answer (play (reopened (play Shared.empty es0)) es) i q = some (.ok a) := by
  have hsz := sized_of_queries hs
  have hkept : Kept True q.slot.1 := by
    cases q with
    | col_density => exact .inr (.inr (.inl rfl))
    | tau => exact .inr (.inl rfl)
    | observer_tau => exact .inl rfl
    | velocity => exact .inr (.inr (.inr ⟨trivial, rfl⟩))
    | _ => rcases hq with hq | hq <;> exact hq.elim
  have hw0 := play_inv (V := True) hsz (empty_inv env True) h0 (fun _ => hno0)
  set w0 := reopened (play Shared.empty es0) with hw
  have hw1 : WInv env True w0 := ⟨hw0.disk, fun o ho => by cases ho⟩
  have hright : q.answer env (St.fresh none) = .ok a :=
    answer_right hsz (play_inv hsz hw1 (es := [.load env.noSnapshot]) (by
      intro ev hev env2 he
      rw [List.mem_singleton] at hev
      subst hev
      rcases he with he | he
      · cases he
      · cases he; exact noSnapshot_le env) (fun _ i hi => by simp at hi)) hkept hfile
  have hkey : HasKey q.slot.1 q.slot.2 w0 := by
    refine ⟨?_, fun o ho => by cases ho⟩
    have hob : w0.objs = [] := rfl
    cases hd : w0.disk with
    | none =>
      exfalso
      have : play w0 [.load env.noSnapshot] = w0 := by
        exact step_load_fails (e := .ioError) (by rw [hd]; rfl)
      rw [this] at hfile
      unfold answer at hfile
      rw [hob] at hfile
      cases hfile
    | some f =>
      obtain ⟨s, l1, -⟩ := load_soft (hw1.disk f hd)
      have : play w0 [.load env.noSnapshot] = { w0 with objs := [(env.noSnapshot, s)] } := by
        refine (step_load (by rw [hd]; exact l1)).trans ?_
        rw [hob]
        rfl
      rw [this] at hfile
      refine ⟨f, rfl, noSnapshot_infile hsz (hw1.disk f hd) hp hq l1 hlines (a := a) ?_⟩
      have h2 : q.answer env.noSnapshot (seenBy { w0 with objs := [(env.noSnapshot, s)] } s) = .ok a := Option.some.inj hfile
      unfold seenBy at h2
      dsimp only at h2
      rw [hd] at h2
      exact h2
  have H : ∀ (es : List Event) (w : World), WInv env True w → HasKey q.slot.1 q.slot.2 w → OfOne env es → NoFailure es → OnlyLoads es →
      WInv env True (play w es) ∧ HasKey q.slot.1 q.slot.2 (play w es) := by
    intro es
    induction es with
    | nil => intro w h1 h2 _ _ _; exact ⟨h1, h2⟩
    | cons ev es ih =>
      intro w h1 h2 h3 h4 h5
      have hne : ∀ i, ev ≠ .saveFails i := fun i he => h4 i (by simp [he])
      exact ih (step w ev) (step_inv hsz h1 (fun env2 he => h3 ev (by simp) env2 he) (fun _ => hne))
        (step_key hsz h1 h2 (fun env2 he => h5 env2 (by simp [he])) hne)
        (fun e he => h3 e (by simp [he])) (fun i hi => h4 i (by simp [hi])) (fun e he => h5 e (by simp [he]))
  obtain ⟨hW, hK⟩ := H es w0 hw1 hkey hes hno hload
  set w := play w0 es
  obtain ⟨f, hf, hin⟩ := hK.disk
  obtain ⟨⟨env2, s⟩, hget⟩ : ∃ o, w.objs[i]? = some o := ⟨_, List.getElem?_eq_getElem hi⟩
  obtain ⟨hle, hsoft⟩ := seen_soft hW hget
  obtain ⟨-, -, -, r4⟩ := run_soft hle hsz hsoft hW.disk q
  obtain ⟨b, hb⟩ := r4 f (plain_forced hp) hf hkept (hK.objs _ (List.mem_of_getElem? hget)) hin
  have hans : answer w i q = some (.ok b) := by
    unfold answer
    rw [hget]
    exact congrArg some hb
  have := answer_right hsz hW hkept hans
  rw [hright] at this
  rw [hans, Except.ok.inj this]

/-! Arrays with more than one element. -/

/-- Every array in memory is right or has at most one element. -/
def Weak (T : Truth) (s : St) : Prop :=
  ∀ g k r, g ≠ .num_important → s.entry g k = some r → r < s.heap.length ∧ ((s.read r).length ≤ 1 ∨ T g k = some (s.read r))

/-- So is every array in the savefile. -/
def DiskWeak (T : Truth) (d : Option HFile) : Prop :=
  ∀ f, d = some f → ∀ g k a, g ≠ .num_important → (path k, a) ∈ f g → a.length ≤ 1 ∨ T g k = some a

theorem weak_store {T : Truth} {s : St} (h : Weak T s) {g : Grp} {k : Key} {a : Arr}
    (ha : g ≠ .num_important → a.length ≤ 1 ∨ T g k = some a) : Weak T (s.store g k a) := by
  intro g' k' r hg hr
  have hlen : (s.store g k a).heap.length = s.heap.length + 1 := by simp [St.store]
  rw [store_entry] at hr
  rw [store_read]
  by_cases hk : g' = g ∧ k' = k
  · rw [if_pos hk] at hr
    obtain rfl := Option.some.inj hr
    obtain ⟨rfl, rfl⟩ := hk
    rw [if_pos rfl]
    exact ⟨by omega, ha hg⟩
  · rw [if_neg hk] at hr
    obtain ⟨h1, h2⟩ := h g' k' r hg hr
    rw [if_neg h1.ne]
    exact ⟨by omega, h2⟩

theorem weak_reallyLoad {T : Truth} {s : St} (h : Weak T s) (hd : DiskWeak T s.disk) (g : Grp) (k : Key) :
    Weak T (reallyLoad g k s).2 := by
  unfold reallyLoad
  split
  · exact h
  · split
    · exact h
    · split
      · exact h
      · rename_i f hf
        split
        · exact h
        · rename_i a ha
          exact weak_store h (fun hg => hd f hf g k a hg (lookup_mem ha))

theorem weak_cached {T : Truth} {V : Prop} {s : St} (hs : Soft T V s) (hds : DiskOk T V s.disk) (h : Weak T s) (hd : DiskWeak T s.disk)
    {g : Grp} {k : Key} {force : Bool} {comp : St → Py Arr × St} (hgn : g ≠ .num_important)
    (hc : ∀ s, Soft T V s → DiskOk T V s.disk → Weak T s → DiskWeak T s.disk → Weak T (comp s).2 ∧ ∀ a, (comp s).1 = .ok a → T g k = some a) :
    Weak T (cached g k force comp s).2 ∧
    ∀ a, valueOf (cached g k force comp s) = .ok a → a.length ≤ 1 ∨ T g k = some a := by
  have hre : ∀ s1, Soft T V s1 → Weak T s1 → s1.disk = s.disk →
      let x : Py ℕ × St := match comp s1 with
        | (.ok a, s2) => (.ok s2.heap.length, s2.store g k a)
        | (.error e, s2) => (.error e, s2)
      Weak T x.2 ∧ ∀ a, valueOf x = .ok a → a.length ≤ 1 ∨ T g k = some a := by
    intro s1 h1 h2 h3
    obtain ⟨c1, c2⟩ := hc s1 h1 (h3 ▸ hds) h2 (h3 ▸ hd)
    revert c1 c2
    rcases comp s1 with ⟨ra, s2⟩
    intro c1 c2
    cases ra with
    | error e => exact ⟨c1, fun a ha => by cases ha⟩
    | ok b =>
      refine ⟨weak_store c1 (fun _ => .inr (c2 b rfl)), fun a ha => ?_⟩
      change Except.ok ((s2.store g k b).read s2.heap.length) = _ at ha
      rw [store_read, if_pos rfl] at ha
      cases ha
      exact .inr (c2 b rfl)
  unfold cached
  cases force with
  | true => exact hre s hs h rfl
  | false =>
    simp only [Bool.false_eq_true, if_false]
    have l1 := weak_reallyLoad h hd g k
    obtain ⟨l2, l3, -⟩ := reallyLoad_soft hs hds g k
    revert l1 l2 l3
    rcases reallyLoad g k s with ⟨res, s1⟩
    intro l1 l2 l3
    cases res with
    | ok _ =>
      dsimp only
      cases hr : (s1.dicts g).lookup k with
      | none => exact hre s1 l2 l1 l3.disk
      | some r =>
        refine ⟨l1, fun a ha => ?_⟩
        cases ha
        exact (l1 g k r hgn hr).2
    | error e =>
      by_cases hke : e = .keyError
      · subst hke
        exact hre s1 l2 l1 l3.disk
      · cases e <;> first | exact absurd rfl hke | exact ⟨l1, fun a ha => by cases ha⟩

theorem weak_massWeighted {env env2 : Env} (hle : env2.le env) (hsz : Sized env) (g : Grp) (e : String) (i : ℤ)
    (hgr : g = .velocity ∨ g = .temperature ∨ g = .density_weight_density) {s : St} (hs : Soft (truth env) False s)
    (hds : DiskOk (truth env) False s.disk) (h : Weak (truth env) s) (hd : DiskWeak (truth env) s.disk) :
    Weak (truth env) (massWeighted env2 g e i s).2 ∧
    ∀ a, (massWeighted env2 g e i s).1 = .ok a → truth env g ⟨e, i, none⟩ = some a := by
  have hex : expected env g ⟨e, i, none⟩ = (do
      let num ← env.weighted g e i
      let c ← env.compute e i 0 false
      env.divide g num (noZero (c.map (· / env.phys)))) := by
    rcases hgr with rfl | rfl | rfl <;> rfl
  unfold massWeighted
  cases hw2 : env2.weighted g e i with
  | error x => exact ⟨h, fun a ha => by cases ha⟩
  | ok num =>
    have hw1 : env.weighted g e i = .ok num := by
      rcases hle.weighted g e i with h | ⟨x, h⟩
      · rw [← h, hw2]
      · rw [h] at hw2; cases hw2
    have hcomp := compute_soft (V := False) (env2 := env2) hle hsz (g := .colden) (k := ⟨e, i, none⟩) (e := e) (i := i) (l := 0)
      (b := false) rfl
    obtain ⟨-, -, c3, -⟩ := cached_soft hs hds .colden ⟨e, i, none⟩ false hcomp
    have c3' := c3 (.inr (.inr (.inl rfl)))
    have c4 := (weak_cached hs hds h hd (g := .colden) (k := ⟨e, i, none⟩) (force := false) (by decide)
      (comp := fun s => (env2.compute e i 0 false, s))
      (fun s h1 h2 h3 _ => ⟨h3, fun a ha => ((hcomp s h1 h2).2.2 a ha (.inr (.inr (.inl rfl)))).1⟩)).1
    unfold get_density get_col_density
    revert c3' c4
    rcases cached .colden ⟨e, i, none⟩ false (fun s => (env2.compute e i 0 false, s)) s with ⟨res, s1⟩
    intro c3' c4
    cases res with
    | error x => exact ⟨c4, fun a ha => by cases ha⟩
    | ok r =>
      refine ⟨c4, fun a ha => ?_⟩
      have hc' : env.compute e i 0 false = .ok (s1.read r) := (truth_iff env _ _ _).1 (c3' _ rfl).1
      rw [truth_iff, hex, hw1, hc']
      change env.divide g num (noZero ((s1.read r).map (· / env.phys))) = _
      change env2.divide g num (noZero ((s1.read r).map (· / env2.phys))) = _ at ha
      rw [← hle.divide, ← hle.phys]
      exact ha

theorem weak_run {env env2 : Env} (hle : env2.le env) (hsz : Sized env) {s : St} (hs : Soft (truth env) False s)
    (hds : DiskOk (truth env) False s.disk) (h : Weak (truth env) s) (hd : DiskWeak (truth env) s.disk) (q : Query) :
    Weak (truth env) (q.run env2 s).2 ∧
    ∀ a, q.answer env2 s = .ok a → a.length ≤ 1 ∨ truth env q.slot.1 q.slot.2 = some a := by
  have hcomp : ∀ (g : Grp) (k : Key) (e : String) (i l : ℤ) (b : Bool), expected env g k = env.compute e i l b →
      ∀ a, env2.compute e i l b = .ok a → truth env g k = some a := by
    intro g k e i l b hx a ha
    rw [truth_iff, hx]
    rcases hle.compute e i l b with h | ⟨x, h⟩
    · rw [← h, ha]
    · rw [h] at ha; cases ha
  cases q with
  | col_density e i f => exact weak_cached hs hds h hd (by decide) (fun s _ _ h3 _ => ⟨h3, hcomp _ _ _ _ _ _ rfl⟩)
  | tau e i l f => exact weak_cached hs hds h hd (by decide) (fun s _ _ h3 _ => ⟨h3, hcomp _ _ _ _ _ _ rfl⟩)
  | observer_tau e i f =>
    refine weak_cached hs hds h hd (by decide) (fun s _ _ h3 _ => ⟨h3, fun a ha => ?_⟩)
    rw [truth_iff]
    rcases observer_or hle (full := False) (fun h => h.elim) e i with h | ⟨-, x, h⟩
    · exact h.symm.trans ha
    · have ha' : observer env2 e i = .ok a := ha
      rw [h] at ha'; cases ha'
  | velocity e i =>
    exact weak_cached hs hds h hd (by decide) (fun s h1 h2 h3 h4 => weak_massWeighted hle hsz _ e i (.inl rfl) h1 h2 h3 h4)
  | temp e i =>
    exact weak_cached hs hds h hd (by decide) (fun s h1 h2 h3 h4 => weak_massWeighted hle hsz _ e i (.inr (.inl rfl)) h1 h2 h3 h4)
  | dens_weighted e i =>
    exact weak_cached hs hds h hd (by decide) (fun s h1 h2 h3 h4 => weak_massWeighted hle hsz _ e i (.inr (.inr rfl)) h1 h2 h3 h4)

theorem weak_loadAll {T : Truth} {s : St} (h : Weak T s) (hd : DiskWeak T s.disk) (g : Grp) :
    Weak T (loadAll g s).2 ∧ (loadAll g s).2.disk = s.disk := by
  have hdisk : ∀ k s, (reallyLoad g k s).2.disk = s.disk := by
    intro k s
    unfold reallyLoad
    split
    · rfl
    · split
      · rfl
      · split
        · rfl
        · split <;> rfl
  unfold loadAll
  generalize (s.dicts g).map Prod.fst = ks
  have H : ∀ (ks : List Key) (x : Py Unit × St), Weak T x.2 → x.2.disk = s.disk →
      Weak T (ks.foldl (fun acc k => match acc with
        | ((.ok _ : Py Unit), s1) => reallyLoad g k s1
        | (.error e, s1) => (.error e, s1)) x).2 ∧
      (ks.foldl (fun acc k => match acc with
        | ((.ok _ : Py Unit), s1) => reallyLoad g k s1
        | (.error e, s1) => (.error e, s1)) x).2.disk = s.disk := by
    intro ks
    induction ks with
    | nil => intro x h1 h2; exact ⟨h1, h2⟩
    | cons k ks ih =>
      rintro ⟨res, s1⟩ h1 h2
      rw [List.foldl_cons]
      apply ih
      · cases res with
        | ok _ => exact weak_reallyLoad h1 (by rw [show s1.disk = s.disk from h2]; exact hd) g k
        | error e => exact h1
      · cases res with
        | ok _ => exact (hdisk k s1).trans h2
        | error e => exact h2
  exact H ks (.ok (), s) h rfl

theorem weak_loadForSave {T : Truth} {s : St} (h : Weak T s) (hd : DiskWeak T s.disk) : Weak T (loadForSave s).2 := by
  unfold loadForSave
  have h1 := weak_loadAll h hd .tau_obs
  revert h1
  rcases loadAll .tau_obs s with ⟨r1, s1⟩
  intro h1
  cases r1 with
  | error e => exact h1.1
  | ok _ =>
    dsimp only
    have hd1 : DiskWeak T s1.disk := h1.2 ▸ hd
    have h2 := weak_loadAll h1.1 hd1 .tau
    revert h2
    rcases loadAll .tau s1 with ⟨r2, s2⟩
    intro h2
    cases r2 with
    | error e => exact h2.1
    | ok _ =>
      dsimp only
      have hd2 : DiskWeak T s2.disk := h2.2 ▸ hd1
      have h3 := weak_loadAll h2.1 hd2 .colden
      revert h3
      rcases loadAll .colden s2 with ⟨r3, s3⟩
      intro h3
      cases r3 with
      | error e => exact h3.1
      | ok _ =>
        dsimp only
        have hd3 : DiskWeak T s3.disk := h3.2 ▸ hd2
        have h4 := weak_loadAll h3.1 hd3 .velocity
        revert h4
        rcases loadAll .velocity s3 with ⟨r4, s4⟩
        intro h4
        cases r4 with
        | ok _ => exact h4.1
        | error e => cases e <;> exact h4.1

theorem weak_save {T : Truth} {V : Prop} {s : St} (hs : Soft T V s) (hds : DiskOk T V s.disk) (h : Weak T s) (hd : DiskWeak T s.disk) :
    Weak T (save_file s).2 ∧ DiskWeak T (save_file s).2.disk := by
  have h1 := weak_loadForSave h hd
  obtain ⟨h2, h3, -⟩ := loadForSave_soft hs hds
  unfold save_file
  revert h1 h2 h3
  rcases loadForSave s with ⟨res, s1⟩
  intro h1 h2 h3
  cases res with
  | error e => exact ⟨h1, h3.disk ▸ hd⟩
  | ok _ =>
    refine ⟨h1, ?_⟩
    intro f hf g k a hg ha
    cases hf
    obtain ⟨k', r, hr, hp, rfl⟩ := (mem_saveGroup h2.wf g _ a).1 ha
    rw [path_inj hp]
    exact (h1 g k' r hg hr).2

structure WWeak (env : Env) (w : World) : Prop where
  inv : WInv env False w
  disk : DiskWeak (truth env) w.disk
  objs : ∀ o ∈ w.objs, Weak (truth env) o.2

theorem step_weak {env : Env} (hsz : Sized env) {w : World} (h : WWeak env w) {ev : Event}
    (hev : ∀ env2, ev = .create env2 ∨ ev = .load env2 → env2.le env) : WWeak env (step w ev) := by
  have hinv := step_inv hsz h.inv hev (fun h => h.elim)
  have hw : ∀ {i env2 s}, w.objs[i]? = some (env2, s) → Weak (truth env) (seenBy w s) :=
    fun hi => h.objs _ (List.mem_of_getElem? hi)
  refine ⟨hinv, ?_, ?_⟩
  · cases ev with
    | create env2 => exact h.disk
    | load env2 =>
      cases hd : load_savefile w.disk with
      | error e => rw [step_load_fails hd]; exact h.disk
      | ok s => rw [step_load hd]; exact h.disk
    | ask i q =>
      cases hi : w.objs[i]? with
      | none => rw [(step_nobody hi).1]; exact h.disk
      | some o => obtain ⟨env2, s⟩ := o; rw [step_ask hi]; exact h.disk
    | save i =>
      cases hi : w.objs[i]? with
      | none => rw [(step_nobody hi).2.1]; exact h.disk
      | some o =>
        obtain ⟨env2, s⟩ := o
        rw [step_save hi]
        exact (weak_save (seen_soft h.inv hi).2 h.inv.disk (hw hi) h.disk).2
    | saveFails i =>
      cases hi : w.objs[i]? with
      | none => rw [(step_nobody hi).2.2]; exact h.disk
      | some o =>
        obtain ⟨env2, s⟩ := o
        cases hld : loadForSave (seenBy w s) with | mk res s1 => _
        cases res with
        | error e => rw [step_saveFails_load hi hld]; exact h.disk
        | ok _ => rw [step_saveFails hi hld]; intro f hf; cases hf
  · intro o ho
    cases ev with
    | create env2 =>
      rcases List.mem_append.1 ho with ho | ho
      · exact h.objs o ho
      · rw [List.mem_singleton] at ho
        subst ho
        intro g k r _ hr
        cases hr
    | load env2 =>
      cases hd : load_savefile w.disk with
      | error e => rw [step_load_fails hd] at ho; exact h.objs o ho
      | ok s =>
        rw [step_load hd] at ho
        rcases List.mem_append.1 ho with ho | ho
        · exact h.objs o ho
        · rw [List.mem_singleton] at ho
          subst ho
          intro g k r hg hr
          cases hdd : w.disk with
          | none => rw [hdd] at hd; cases hd
          | some f =>
            rw [hdd] at hd
            obtain ⟨h1, h2⟩ := load_placeholders hd g k r hg hr
            exact ⟨h1, .inl (by rw [h2]; simp)⟩
    | ask i q =>
      cases hi : w.objs[i]? with
      | none => rw [(step_nobody hi).1] at ho; exact h.objs o ho
      | some x =>
        obtain ⟨env2, s⟩ := x
        rw [step_ask hi] at ho
        rcases mem_set ho with ho | rfl
        · exact h.objs o ho
        · obtain ⟨hle, hs⟩ := seen_soft h.inv hi
          exact (weak_run hle hsz hs h.inv.disk (hw hi) h.disk q).1
    | save i =>
      cases hi : w.objs[i]? with
      | none => rw [(step_nobody hi).2.1] at ho; exact h.objs o ho
      | some x =>
        obtain ⟨env2, s⟩ := x
        rw [step_save hi] at ho
        rcases mem_set ho with ho | rfl
        · exact h.objs o ho
        · exact (weak_save (seen_soft h.inv hi).2 h.inv.disk (hw hi) h.disk).1
    | saveFails i =>
      cases hi : w.objs[i]? with
      | none => rw [(step_nobody hi).2.2] at ho; exact h.objs o ho
      | some x =>
        obtain ⟨env2, s⟩ := x
        have hls := weak_loadForSave (hw hi) h.disk
        cases hld : loadForSave (seenBy w s) with | mk res s1 => _
        rw [hld] at hls
        cases res with
        | error e =>
          rw [step_saveFails_load hi hld] at ho
          rcases mem_set ho with ho | rfl
          · exact h.objs o ho
          · exact hls
        | ok _ =>
          rw [step_saveFails hi hld] at ho
          rcases mem_set ho with ho | rfl
          · exact h.objs o ho
          · exact hls

/-- C117: and any array at all, of whatever query and in whatever history, is the right one if it has more than one element. What saving may
put in the place of an array is a single zero. -/
theorem shared_long {env : Env} (hs : Sizes env) {es : List Event} (hes : OfOne env es) {i : ℕ} {q : Query} {a : Arr}
    (h : answer (play Shared.empty es) i q = some (.ok a)) (hl : 1 < a.length) : q.answer env (St.fresh none) = .ok a := by
  have hsz := sized_of_queries hs
  have H : ∀ (es : List Event) (w : World), WWeak env w → OfOne env es → WWeak env (play w es) := by
    intro es
    induction es with
    | nil => intro w h _; exact h
    | cons ev es ih =>
      intro w h1 h2
      exact ih (step w ev) (step_weak hsz h1 (fun env2 he => h2 ev (by simp) env2 he)) (fun e he => h2 e (by simp [he]))
  have hw := H es Shared.empty ⟨empty_inv env False, fun f h => (by cases h), fun o h => (by cases h)⟩ hes
  unfold answer at h
  cases hi : (play Shared.empty es).objs[i]? with
  | none => rw [hi] at h; cases h
  | some o =>
    obtain ⟨env2, s⟩ := o
    rw [hi] at h
    obtain ⟨hle, hsoft⟩ := seen_soft hw.inv hi
    have h1 := (weak_run hle hsz hsoft hw.inv.disk (show Weak (truth env) (seenBy (play Shared.empty es) s) from
      hw.objs _ (List.mem_of_getElem? hi)) hw.disk q).2 a (Option.some.inj h)
    rw [fresh_answer]
    rcases h1 with h1 | h1
    · omega
    · exact (truth_iff env _ _ a).1 h1

/-! Arrays which were returned. -/

/-- The array is in memory. -/
def Held (s : St) (g : Grp) (k : Key) (a : Arr) : Prop := ∃ r, s.entry g k = some r ∧ s.read r = a

theorem held_store {s : St} {g g' : Grp} {k k' : Key} {a b : Arr} (hl : 1 < a.length) (h : Held s g k a) (hk : (g', k') ≠ (g, k)) :
    Held (s.store g' k' b) g k a := by
  obtain ⟨r, h1, h2⟩ := h
  refine ⟨r, ?_, ?_⟩
  · rw [store_entry, if_neg]
    · exact h1
    · rintro ⟨rfl, rfl⟩; exact hk rfl
  · rw [store_read, if_neg]
    · exact h2
    · rintro rfl
      have : s.read s.heap.length = [] := by simp [St.read]
      rw [this] at h2
      subst h2
      simp at hl

theorem held_reallyLoad {s : St} {g : Grp} {k : Key} {a : Arr} (hl : 1 < a.length) (h : Held s g k a) (g' : Grp) (k' : Key) :
    Held (reallyLoad g' k' s).2 g k a ∧ ((g', k') = (g, k) → reallyLoad g' k' s = (.ok (), s)) := by
  by_cases hk : (g', k') = (g, k)
  · cases hk
    have : reallyLoad g k s = (.ok (), s) := by
      obtain ⟨r, h1, h2⟩ := h
      unfold reallyLoad
      rw [show (s.dicts g).lookup k = some r from h1]
      dsimp only
      rw [if_pos (by rw [h2]; exact hl)]
    rw [this]
    exact ⟨h, fun _ => rfl⟩
  · refine ⟨?_, fun h => absurd h hk⟩
    unfold reallyLoad
    split
    · exact h
    · split
      · exact h
      · split
        · exact h
        · split
          · exact h
          · exact held_store hl h hk

theorem held_cached {s : St} {g : Grp} {k : Key} {a : Arr} (hl : 1 < a.length) (h : Held s g k a) (g' : Grp) (k' : Key) (force : Bool)
    {comp : St → Py Arr × St} (hc : ∀ s, Held s g k a → Held (comp s).2 g k a) (hf : (g', k') = (g, k) → force = false) :
    Held (cached g' k' force comp s).2 g k a ∧ ((g', k') = (g, k) → valueOf (cached g' k' force comp s) = .ok a) := by
  have hre : ∀ s1, Held s1 g k a → (g', k') ≠ (g, k) →
      Held (match comp s1 with
        | (.ok a, s2) => ((.ok s2.heap.length : Py ℕ), s2.store g' k' a)
        | (.error e, s2) => (.error e, s2)).2 g k a := by
    intro s1 h1 hk
    have := hc s1 h1
    revert this
    rcases comp s1 with ⟨ra, s2⟩
    intro this
    cases ra with
    | error e => exact this
    | ok b => exact held_store hl this hk
  obtain ⟨l1, l2⟩ := held_reallyLoad hl h g' k'
  by_cases hk : (g', k') = (g, k)
  · have hff := hf hk
    subst hff
    have hx := l2 hk
    cases hk
    obtain ⟨r, h1, h2⟩ := h
    have : cached g k false comp s = (.ok r, s) := by
      unfold cached
      simp only [Bool.false_eq_true, if_false]
      rw [hx]
      dsimp only
      rw [show (s.dicts g).lookup k = some r from h1]
    rw [this]
    exact ⟨⟨r, h1, h2⟩, fun _ => congrArg _ h2⟩
  · refine ⟨?_, fun h => absurd h hk⟩
    unfold cached
    cases force with
    | true => exact hre s h hk
    | false =>
      simp only [Bool.false_eq_true, if_false]
      revert l1
      rcases reallyLoad g' k' s with ⟨res, s1⟩
      intro l1
      cases res with
      | ok _ =>
        dsimp only
        split
        · exact l1
        · exact hre s1 l1 hk
      | error e =>
        by_cases hke : e = .keyError
        · subst hke; exact hre s1 l1 hk
        · cases e <;> first | exact absurd rfl hke | exact l1

theorem held_massWeighted {s : St} {g : Grp} {k : Key} {a : Arr} (hl : 1 < a.length) (h : Held s g k a) (env : Env) (g' : Grp) (e : String)
    (i : ℤ) : Held (massWeighted env g' e i s).2 g k a := by
  unfold massWeighted
  split
  · exact h
  · have := (held_cached hl h .colden ⟨e, i, none⟩ false (comp := fun s => (env.compute e i 0 false, s)) (fun _ h => h) (fun _ => rfl)).1
    unfold get_density get_col_density
    revert this
    rcases cached .colden ⟨e, i, none⟩ false (fun s => (env.compute e i 0 false, s)) s with ⟨res, s1⟩
    intro this
    cases res <;> exact this

theorem held_run {s : St} {g : Grp} {k : Key} {a : Arr} (hl : 1 < a.length) (h : Held s g k a) (env : Env) (q : Query)
    (hf : q.slot = (g, k) → q.forced = false) :
    Held (q.run env s).2 g k a ∧ (q.slot = (g, k) → q.answer env s = .ok a) := by
  cases q with
  | col_density e i f => exact held_cached hl h _ _ f (fun _ h => h) hf
  | tau e i l f => exact held_cached hl h _ _ f (fun _ h => h) hf
  | observer_tau e i f => exact held_cached hl h _ _ f (fun _ h => h) hf
  | velocity e i => exact held_cached hl h _ _ false (fun _ h => held_massWeighted hl h _ _ _ _) hf
  | temp e i => exact held_cached hl h _ _ false (fun _ h => held_massWeighted hl h _ _ _ _) hf
  | dens_weighted e i => exact held_cached hl h _ _ false (fun _ h => held_massWeighted hl h _ _ _ _) hf

theorem held_loadAll {s : St} {g : Grp} {k : Key} {a : Arr} (hl : 1 < a.length) (h : Held s g k a) (g' : Grp) :
    Held (loadAll g' s).2 g k a := by
  unfold loadAll
  generalize (s.dicts g').map Prod.fst = ks
  have H : ∀ (ks : List Key) (x : Py Unit × St), Held x.2 g k a →
      Held (ks.foldl (fun acc k => match acc with
        | ((.ok _ : Py Unit), s1) => reallyLoad g' k s1
        | (.error e, s1) => (.error e, s1)) x).2 g k a := by
    intro ks
    induction ks with
    | nil => intro x hx; exact hx
    | cons k' ks ih =>
      rintro ⟨res, s1⟩ hx
      rw [List.foldl_cons]
      apply ih
      cases res with
      | ok _ => exact (held_reallyLoad hl hx g' k').1
      | error e => exact hx
  exact H ks (.ok (), s) h

theorem held_loadForSave {s : St} {g : Grp} {k : Key} {a : Arr} (hl : 1 < a.length) (h : Held s g k a) : Held (loadForSave s).2 g k a := by
  unfold loadForSave
  have h1 := held_loadAll hl h .tau_obs
  revert h1
  rcases loadAll .tau_obs s with ⟨r1, s1⟩
  intro h1
  cases r1 with
  | error e => exact h1
  | ok _ =>
    dsimp only
    have h2 := held_loadAll hl h1 .tau
    revert h2
    rcases loadAll .tau s1 with ⟨r2, s2⟩
    intro h2
    cases r2 with
    | error e => exact h2
    | ok _ =>
      dsimp only
      have h3 := held_loadAll hl h2 .colden
      revert h3
      rcases loadAll .colden s2 with ⟨r3, s3⟩
      intro h3
      cases r3 with
      | error e => exact h3
      | ok _ =>
        dsimp only
        have h4 := held_loadAll hl h3 .velocity
        revert h4
        rcases loadAll .velocity s3 with ⟨r4, s4⟩
        intro h4
        cases r4 with
        | ok _ => exact h4
        | error e => cases e <;> exact h4

theorem held_save {s : St} {g : Grp} {k : Key} {a : Arr} (hl : 1 < a.length) (h : Held s g k a) : Held (save_file s).2 g k a := by
  unfold save_file
  have h1 := held_loadForSave hl h
  revert h1
  rcases loadForSave s with ⟨r1, s1⟩
  intro h1
  cases r1 <;> exact h1

/-- What a query returned is in memory. -/
theorem cached_held {s : St} {g : Grp} {k : Key} {force : Bool} {comp : St → Py Arr × St} {a : Arr}
    (h : valueOf (cached g k force comp s) = .ok a) : Held (cached g k force comp s).2 g k a := by
  have hre : ∀ s1, valueOf (match comp s1 with
        | (.ok a, s2) => ((.ok s2.heap.length : Py ℕ), s2.store g k a)
        | (.error e, s2) => (.error e, s2)) = .ok a →
      Held (match comp s1 with
        | (.ok a, s2) => ((.ok s2.heap.length : Py ℕ), s2.store g k a)
        | (.error e, s2) => (.error e, s2)).2 g k a := by
    intro s1
    rcases comp s1 with ⟨ra, s2⟩
    cases ra with
    | error e => intro h; cases h
    | ok b =>
      intro h
      exact ⟨s2.heap.length, by rw [store_entry, if_pos ⟨rfl, rfl⟩], Except.ok.inj h⟩
  revert h
  unfold cached
  cases force with
  | true => exact hre s
  | false =>
    simp only [Bool.false_eq_true, if_false]
    rcases reallyLoad g k s with ⟨res, s1⟩
    cases res with
    | ok _ =>
      dsimp only
      cases hr : (s1.dicts g).lookup k with
      | none => exact hre s1
      | some r => intro h; exact ⟨r, hr, Except.ok.inj h⟩
    | error e =>
      by_cases hke : e = .keyError
      · subst hke; exact hre s1
      · cases e <;> first | exact absurd rfl hke | (intro h; cases h)

theorem run_held {s : St} {env : Env} {q : Query} {a : Arr} (h : q.answer env s = .ok a) : Held (q.run env s).2 q.slot.1 q.slot.2 a := by
  cases q <;> exact cached_held h

/-- What object `i` holds stays, whatever happens. -/
theorem step_held {w : World} {i : ℕ} {g : Grp} {k : Key} {a : Arr} (hl : 1 < a.length)
    (h : ∃ env s, w.objs[i]? = some (env, s) ∧ Held s g k a) (ev : Event)
    (hev : ∀ q, ev = .ask i q → q.slot = (g, k) → q.forced = false) :
    ∃ env s, (step w ev).objs[i]? = some (env, s) ∧ Held s g k a := by
  obtain ⟨env, s, hi, hs⟩ := h
  have hlt : i < w.objs.length := (List.getElem?_eq_some_iff.1 hi).1
  have happ : ∀ x, (w.objs ++ [x])[i]? = some (env, s) := fun x => by rw [List.getElem?_append_left hlt]; exact hi
  have hseen : Held (seenBy w s) g k a := hs
  have hset : ∀ (j : ℕ) (x : Env × St), (j = i → Held x.2 g k a) → ∃ env s, (w.objs.set j x)[i]? = some (env, s) ∧ Held s g k a := by
    intro j x hx
    by_cases hj : j = i
    · subst hj
      exact ⟨x.1, x.2, by rw [List.getElem?_set_self hlt], hx rfl⟩
    · exact ⟨env, s, by rw [List.getElem?_set_ne hj]; exact hi, hs⟩
  cases ev with
  | create env2 => exact ⟨env, s, happ _, hs⟩
  | load env2 =>
    cases hd : load_savefile w.disk with
    | error e => rw [step_load_fails hd]; exact ⟨env, s, hi, hs⟩
    | ok s2 => rw [step_load hd]; exact ⟨env, s, happ _, hs⟩
  | ask j q =>
    cases hj : w.objs[j]? with
    | none => rw [(step_nobody hj).1]; exact ⟨env, s, hi, hs⟩
    | some o =>
      obtain ⟨env2, s2⟩ := o
      rw [step_ask hj]
      refine hset j _ ?_
      rintro rfl
      rw [hi] at hj
      cases hj
      exact (held_run hl hseen env q (hev q rfl)).1
  | save j =>
    cases hj : w.objs[j]? with
    | none => rw [(step_nobody hj).2.1]; exact ⟨env, s, hi, hs⟩
    | some o =>
      obtain ⟨env2, s2⟩ := o
      rw [step_save hj]
      refine hset j _ ?_
      rintro rfl
      rw [hi] at hj
      cases hj
      exact held_save hl hseen
  | saveFails j =>
    cases hj : w.objs[j]? with
    | none => rw [(step_nobody hj).2.2]; exact ⟨env, s, hi, hs⟩
    | some o =>
      obtain ⟨env2, s2⟩ := o
      have hh : j = i → Held (loadForSave (seenBy w s2)).2 g k a := by
        rintro rfl
        rw [hi] at hj
        cases hj
        exact held_loadForSave hl hseen
      cases hld : loadForSave (seenBy w s2) with | mk res s3 => _
      rw [hld] at hh
      cases res with
      | error e => rw [step_saveFails_load hj hld]; exact hset j _ hh
      | ok _ => rw [step_saveFails hj hld]; exact hset j _ hh

/-- C117: once an object has returned an array, it returns that array again until it is told to compute it anew, whatever happens to the
savefile, and whatever other objects, of whatever simulation, do. -/
theorem answered_stays (w : World) {i : ℕ} {q : Query} (hp : Plain q) {a : Arr} (h : answer w i q = some (.ok a)) (hl : 1 < a.length)
    {es : List Event} (hes : ∀ q', Event.ask i q' ∈ es → ¬ Recomputes q q') : answer (play (step w (.ask i q)) es) i q = some (.ok a) := by
  have h0 : ∃ env s, (step w (.ask i q)).objs[i]? = some (env, s) ∧ Held s q.slot.1 q.slot.2 a := by
    unfold answer at h
    cases hi : w.objs[i]? with
    | none => rw [hi] at h; cases h
    | some o =>
      obtain ⟨env, s⟩ := o
      rw [step_ask hi]
      rw [hi] at h
      have hlt : i < w.objs.length := (List.getElem?_eq_some_iff.1 hi).1
      exact ⟨env, _, by rw [List.getElem?_set_self hlt], run_held (Option.some.inj h)⟩
  have H : ∀ (es : List Event) (w : World), (∃ env s, w.objs[i]? = some (env, s) ∧ Held s q.slot.1 q.slot.2 a) →
      (∀ q', Event.ask i q' ∈ es → ¬ Recomputes q q') →
      ∃ env s, (play w es).objs[i]? = some (env, s) ∧ Held s q.slot.1 q.slot.2 a := by
    intro es
    induction es with
    | nil => intro w h _; exact h
    | cons ev es ih =>
      intro w h hes
      refine ih (step w ev) (step_held hl h ev ?_) (fun q' hq' => hes q' (by simp [hq']))
      rintro q' rfl hsl
      have := hes q' (by simp)
      cases hf : q'.forced with
      | false => rfl
      | true =>
        exfalso
        apply this
        cases q <;> cases q' <;> simp_all [Query.slot, Query.forced, Recomputes]
  obtain ⟨env, s, h1, h2⟩ := H es _ h0 hes
  have h3 : Held (seenBy (play (step w (.ask i q)) es) s) q.slot.1 q.slot.2 a := h2
  unfold answer
  rw [h1]
  exact congrArg some ((held_run hl h3 env q (fun _ => plain_forced hp)).2 rfl)

/-! Findings. -/

/-- A file with one column density. -/
def oneFile (k : Key) (a : Arr) : HFile := fun g => if g = .colden then [(path k, a)] else []

/-- An object with one column density. -/
def oneSt (d : Option HFile) (k : Key) (a : Arr) : St := (St.fresh d).store .colden k a

theorem ask_fresh {env : Env} {e : String} {i : ℤ} {a : Arr} (h : env.compute e i 0 false = .ok a) (d : Option HFile) :
    (Query.run env (.col_density e i false) (St.fresh d)) = (.ok 0, oneSt d ⟨e, i, none⟩ a) := by
  change (match ((env.compute e i 0 false), St.fresh d) with
    | (.ok a, s1) => ((Except.ok s1.heap.length : Py ℕ), s1.store .colden ⟨e, i, none⟩ a)
    | (.error e, s1) => (.error e, s1)) = _
  rw [h]; rfl

theorem oneSt_load {d d' : Option HFile} {k : Key} {a : Arr} :
    reallyLoad .colden k { oneSt d k a with disk := d' } = (if 1 < a.length then (.ok (), { oneSt d k a with disk := d' })
      else match d' with
        | none => (.error .ioError, { oneSt d k a with disk := d' })
        | some f => match (f .colden).lookup (path k) with
          | none => (.error .keyError, { oneSt d k a with disk := d' })
          | some b => (.ok (), ({ oneSt d k a with disk := d' } : St).store .colden k b)) := by
  unfold reallyLoad
  have h1 : (({ oneSt d k a with disk := d' } : St).dicts .colden).lookup k = some 0 := by
    simp [oneSt, St.store, St.fresh, dictSet]
  have h2 : ({ oneSt d k a with disk := d' } : St).read 0 = a := by simp [oneSt, St.store, St.fresh, St.read]
  rw [h1]
  dsimp only
  rw [h2]
  split
  · rfl
  · cases d' with
    | none => rfl
    | some f =>
      dsimp only
      cases (f .colden).lookup (path k) <;> rfl

theorem oneSt_dicts (d : Option HFile) (k : Key) (a : Arr) (g : Grp) :
    (oneSt d k a).dicts g = if g = .colden then [(k, 0)] else [] := by
  by_cases h : g = .colden
  · subst h; simp [oneSt, St.store, St.fresh, dictSet]
  · simp [oneSt, St.store, St.fresh, h]

theorem loadAll_nothing {s : St} {g : Grp} (h : s.dicts g = []) : loadAll g s = (.ok (), s) := by
  unfold loadAll
  rw [h]
  rfl

theorem oneSt_loadForSave {d d' : Option HFile} {k : Key} {a : Arr} (hl : 1 < a.length) :
    loadForSave { oneSt d k a with disk := d' } = (.ok (), { oneSt d k a with disk := d' }) := by
  have h1 : ∀ g, g ≠ .colden → loadAll g { oneSt d k a with disk := d' } = (.ok (), { oneSt d k a with disk := d' }) :=
    fun g hg => loadAll_nothing (by change (oneSt d k a).dicts g = []; rw [oneSt_dicts, if_neg hg])
  have h2 : loadAll .colden { oneSt d k a with disk := d' } = (.ok (), { oneSt d k a with disk := d' }) := by
    unfold loadAll
    change ((oneSt d k a).dicts .colden |>.map Prod.fst).foldl _ _ = _
    rw [oneSt_dicts, if_pos rfl]
    change reallyLoad .colden k _ = _
    rw [oneSt_load, if_pos hl]
  unfold loadForSave
  rw [h1 _ (by decide)]
  dsimp only
  rw [h1 _ (by decide)]
  dsimp only
  rw [h2]
  dsimp only
  rw [h1 _ (by decide)]

theorem oneSt_save {d d' : Option HFile} {k : Key} {a : Arr} (hl : 1 < a.length) :
    save_file { oneSt d k a with disk := d' } = (.ok (), { oneSt d k a with disk := some (oneFile k a) }) := by
  unfold save_file
  rw [oneSt_loadForSave hl]
  dsimp only
  have : saveGroup { oneSt d k a with disk := d' } = oneFile k a := by
    funext g
    unfold saveGroup oneFile
    change ((oneSt d k a).dicts g).foldl _ _ = _
    rw [oneSt_dicts]
    by_cases hg : g = .colden
    · rw [if_pos hg, if_pos hg]
      simp [oneSt, St.store, St.fresh, St.read]
    · rw [if_neg hg, if_neg hg]
      rfl
  rw [this]

theorem load_one (k : Key) (a : Arr) : load_savefile (some (oneFile k a)) = .ok (oneSt (some (oneFile k a)) k [0]) := by
  unfold load_savefile loadOrder
  simp [oneFile, loadEntry, unpath_path, oneSt]

/-- The file without arrays. -/
def noFile : HFile := fun _ => []

theorem fresh_save (d d' : Option HFile) :
    save_file { St.fresh d with disk := d' } = (.ok (), { St.fresh d with disk := some noFile }) := by
  rfl

theorem load_nothing : load_savefile (some noFile) = .ok (St.fresh (some noFile)) := rfl

/-- A placeholder gives what is in the file now. -/
theorem ask_placeholder (env : Env) (e : String) (i : ℤ) (d : Option HFile) (c : Arr) :
    (Query.col_density e i false).answer env { oneSt d ⟨e, i, none⟩ [0] with disk := some (oneFile ⟨e, i, none⟩ c) } = .ok c := by
  set k : Key := ⟨e, i, none⟩ with hk
  rw [answer_eq]
  change valueOf (cached .colden k false (fun s => (env.compute e i 0 false, s)) _) = _
  unfold cached
  simp only [Bool.false_eq_true, if_false]
  rw [oneSt_load, if_neg (by simp)]
  have : (oneFile k c .colden).lookup (path k) = some c := by simp [oneFile]
  dsimp only
  rw [this]
  dsimp only
  have he := store_entry { oneSt d k [0] with disk := some (oneFile k c) } .colden .colden k k c
  rw [if_pos ⟨rfl, rfl⟩] at he
  rw [show ((({ oneSt d k [0] with disk := some (oneFile k c) } : St).store .colden k c).dicts .colden).lookup k = some _ from he]
  change Except.ok ((({ oneSt d k [0] with disk := some (oneFile k c) } : St).store .colden k c).read _) = _
  rw [store_read, if_pos rfl]

/-- C117, finding: two objects with different sightlines are given the same savefile. The first was made from the file; after the second has
saved, the first returns the column densities of the second for its own sightlines. -/
theorem other_sightlines {env1 env2 : Env} {e : String} {i : ℤ} {a b : Arr} (h1 : env1.compute e i 0 false = .ok a)
    (h2 : env2.compute e i 0 false = .ok b) (ha : 1 < a.length) (hb : 1 < b.length) :
    answer (play Shared.empty [.create env1, .ask 0 (.col_density e i false), .save 0, .load env1]) 1 (.col_density e i false) =
      some (.ok a) ∧
    answer (play Shared.empty [.create env1, .ask 0 (.col_density e i false), .save 0, .load env1, .create env2,
      .ask 2 (.col_density e i false), .save 2]) 1 (.col_density e i false) = some (.ok b) := by
  set k : Key := ⟨e, i, none⟩ with hk
  have p1 : play Shared.empty [.create env1, .ask 0 (.col_density e i false), .save 0, .load env1] =
      ⟨[(env1, { oneSt none k a with disk := some (oneFile k a) }), (env1, oneSt (some (oneFile k a)) k [0])], some (oneFile k a)⟩ := by
    change step (step (step ⟨[(env1, St.fresh none)], none⟩ (.ask 0 (.col_density e i false))) (.save 0)) (.load env1) = _
    rw [step_ask (env := env1) (s := St.fresh none) rfl]
    change step (step ⟨[(env1, (Query.run env1 (.col_density e i false) (St.fresh none)).2)], none⟩ (.save 0)) (.load env1) = _
    rw [ask_fresh h1]
    rw [step_save (env := env1) (s := oneSt none k a) rfl]
    change step ⟨[(env1, (save_file { oneSt none k a with disk := none }).2)], (save_file { oneSt none k a with disk := none }).2.disk⟩ _ = _
    rw [oneSt_save ha]
    rw [step_load (load_one k a)]
    rfl
  constructor
  · rw [p1]
    exact congrArg some (ask_placeholder env1 e i _ a)
  · have p2 : play Shared.empty [.create env1, .ask 0 (.col_density e i false), .save 0, .load env1, .create env2,
        .ask 2 (.col_density e i false), .save 2] =
        ⟨[(env1, { oneSt none k a with disk := some (oneFile k a) }), (env1, oneSt (some (oneFile k a)) k [0]),
          (env2, { oneSt (some (oneFile k a)) k b with disk := some (oneFile k b) })], some (oneFile k b)⟩ := by
      change step (step (step (play Shared.empty [.create env1, .ask 0 (.col_density e i false), .save 0, .load env1]) (.create env2))
        (.ask 2 (.col_density e i false))) (.save 2) = _
      rw [p1]
      change step (step ⟨[_, _, (env2, St.fresh (some (oneFile k a)))], some (oneFile k a)⟩ (.ask 2 (.col_density e i false))) (.save 2) = _
      rw [step_ask (env := env2) (s := St.fresh (some (oneFile k a))) rfl]
      change step ⟨[_, _, (env2, (Query.run env2 (.col_density e i false) (St.fresh (some (oneFile k a)))).2)], some (oneFile k a)⟩ (.save 2) = _
      rw [ask_fresh h2]
      rw [step_save (env := env2) (s := oneSt (some (oneFile k a)) k b) rfl]
      change World.mk [_, _, (env2, (save_file { oneSt (some (oneFile k a)) k b with disk := some (oneFile k a) }).2)]
        (save_file { oneSt (some (oneFile k a)) k b with disk := some (oneFile k a) }).2.disk = _
      rw [oneSt_save hb]
    rw [p2]
    exact congrArg some (ask_placeholder env1 e i _ b)

/-- C117, finding: two objects are made from one file. The second computes a column density and saves, a third is made from that file, without
the snapshot. Then the first saves. The column density is gone: the third object cannot give it any more, and cannot save. -/
theorem lost_update {env : Env} {e : String} {i : ℤ} {a : Arr} (h : env.compute e i 0 false = .ok a) (ha : 1 < a.length) :
    answer (play Shared.empty [.create env, .save 0, .load env, .load env, .ask 2 (.col_density e i false), .save 2, .load env.noSnapshot])
      3 (.col_density e i false) = some (.ok a) ∧
    answer (play Shared.empty [.create env, .save 0, .load env, .load env, .ask 2 (.col_density e i false), .save 2, .load env.noSnapshot,
      .save 1]) 3 (.col_density e i false) = some (.error .attributeError) ∧
    saving (play Shared.empty [.create env, .save 0, .load env, .load env, .ask 2 (.col_density e i false), .save 2, .load env.noSnapshot,
      .save 1]) 3 = some (.error .keyError) := by
  set k : Key := ⟨e, i, none⟩ with hk
  have p1 : play Shared.empty [.create env, .save 0, .load env, .load env, .ask 2 (.col_density e i false), .save 2, .load env.noSnapshot] =
      ⟨[(env, { St.fresh none with disk := some noFile }), (env, St.fresh (some noFile)),
        (env, { oneSt (some noFile) k a with disk := some (oneFile k a) }), (env.noSnapshot, oneSt (some (oneFile k a)) k [0])],
        some (oneFile k a)⟩ := by
    change step (step (step ⟨[(env, { St.fresh none with disk := some noFile }), (env, St.fresh (some noFile)), (env, St.fresh (some noFile))],
      some noFile⟩ (.ask 2 (.col_density e i false))) (.save 2)) (.load env.noSnapshot) = _
    rw [step_ask (env := env) (s := St.fresh (some noFile)) rfl]
    change step (step ⟨[_, _, (env, (Query.run env (.col_density e i false) (St.fresh (some noFile))).2)], some noFile⟩ (.save 2)) _ = _
    rw [ask_fresh h]
    rw [step_save (env := env) (s := oneSt (some noFile) k a) rfl]
    change step ⟨[_, _, (env, (save_file { oneSt (some noFile) k a with disk := some noFile }).2)],
      (save_file { oneSt (some noFile) k a with disk := some noFile }).2.disk⟩ _ = _
    rw [oneSt_save ha]
    rw [step_load (load_one k a)]
    rfl
  have p2 : play Shared.empty [.create env, .save 0, .load env, .load env, .ask 2 (.col_density e i false), .save 2, .load env.noSnapshot,
      .save 1] = ⟨[(env, { St.fresh none with disk := some noFile }), (env, { St.fresh (some noFile) with disk := some noFile }),
        (env, { oneSt (some noFile) k a with disk := some (oneFile k a) }), (env.noSnapshot, oneSt (some (oneFile k a)) k [0])],
        some noFile⟩ := by
    change step (play Shared.empty [.create env, .save 0, .load env, .load env, .ask 2 (.col_density e i false), .save 2,
      .load env.noSnapshot]) (.save 1) = _
    rw [p1, step_save (env := env) (s := St.fresh (some noFile)) rfl]
    rfl
  have hbad : reallyLoad .colden k { oneSt (some (oneFile k a)) k [0] with disk := some noFile } =
      (.error .keyError, { oneSt (some (oneFile k a)) k [0] with disk := some noFile }) := by
    rw [oneSt_load, if_neg (by simp)]
    rfl
  refine ⟨?_, ?_, ?_⟩
  · rw [p1]
    exact congrArg some (ask_placeholder env.noSnapshot e i _ a)
  · rw [p2]
    refine congrArg some ?_
    change (Query.col_density e i false).answer env.noSnapshot { oneSt (some (oneFile k a)) k [0] with disk := some noFile } = _
    rw [answer_eq]
    change valueOf (cached .colden k false (fun s => (env.noSnapshot.compute e i 0 false, s)) _) = _
    unfold cached
    simp only [Bool.false_eq_true, if_false]
    rw [hbad]
    rfl
  · rw [p2]
    refine congrArg some ?_
    change (save_file { oneSt (some (oneFile k a)) k [0] with disk := some noFile }).1 = _
    have h1 : ∀ g, g ≠ .colden → loadAll g { oneSt (some (oneFile k a)) k [0] with disk := some noFile } =
        (.ok (), { oneSt (some (oneFile k a)) k [0] with disk := some noFile }) :=
      fun g hg => loadAll_nothing (by change (oneSt _ k [0]).dicts g = []; rw [oneSt_dicts, if_neg hg])
    have h2 : loadAll .colden { oneSt (some (oneFile k a)) k [0] with disk := some noFile } =
        (.error .keyError, { oneSt (some (oneFile k a)) k [0] with disk := some noFile }) := by
      unfold loadAll
      change ((oneSt _ k [0]).dicts .colden |>.map Prod.fst).foldl _ _ = _
      rw [oneSt_dicts, if_pos rfl]
      exact hbad
    unfold save_file loadForSave
    rw [h1 _ (by decide)]
    dsimp only
    rw [h1 _ (by decide)]
    dsimp only
    rw [h2]

/-- An object with a column density and a velocity. -/
def twoSt (heap : List Arr) (k : Key) (rc rv : ℕ) (d : Option HFile) : St :=
  ⟨heap, fun g => if g = .colden then [(k, rc)] else if g = .velocity then [(k, rv)] else [], d⟩

/-- A file with a column density and a velocity. -/
def twoFile (k : Key) (c v : Arr) : HFile := fun g => if g = .colden then [(path k, c)] else if g = .velocity then [(path k, v)] else []

theorem two_load {heap : List Arr} {k : Key} {rc rv : ℕ} {d : Option HFile} {c : Arr} (hc : heap[rc]? = some c) (hl : 1 < c.length) :
    loadAll .colden (twoSt heap k rc rv d) = (.ok (), twoSt heap k rc rv d) := by
  change reallyLoad .colden k (twoSt heap k rc rv d) = _
  unfold reallyLoad
  have h1 : ((twoSt heap k rc rv d).dicts .colden).lookup k = some rc := by simp [twoSt]
  have h2 : (twoSt heap k rc rv d).read rc = c := by simp [twoSt, St.read, hc]
  rw [h1]
  dsimp only
  rw [h2, if_pos hl]

theorem two_loadForSave {heap : List Arr} {k : Key} {rc rv : ℕ} {d : Option HFile} {c v : Arr} (hc : heap[rc]? = some c)
    (hv : heap[rv]? = some v) (hl : 1 < c.length) (hd : 1 < v.length ∨ d = none) :
    loadForSave (twoSt heap k rc rv d) = (.ok (), twoSt heap k rc rv d) := by
  unfold loadForSave
  rw [loadAll_nothing (g := .tau_obs) rfl]
  dsimp only
  rw [loadAll_nothing (g := .tau) rfl]
  dsimp only
  rw [two_load hc hl]
  dsimp only
  have h1 : ((twoSt heap k rc rv d).dicts .velocity).lookup k = some rv := by simp [twoSt]
  have h2 : (twoSt heap k rc rv d).read rv = v := by simp [twoSt, St.read, hv]
  have h3 : loadAll .velocity (twoSt heap k rc rv d) = reallyLoad .velocity k (twoSt heap k rc rv d) := rfl
  rw [h3]
  unfold reallyLoad
  rw [h1]
  dsimp only
  rw [h2]
  by_cases hlv : 1 < v.length
  · rw [if_pos hlv]
  · rw [if_neg hlv]
    rcases hd with hd | rfl
    · exact absurd hd hlv
    · rfl

theorem two_save {heap : List Arr} {k : Key} {rc rv : ℕ} {d : Option HFile} {c v : Arr} (hc : heap[rc]? = some c)
    (hv : heap[rv]? = some v) (hl : 1 < c.length) (hd : 1 < v.length ∨ d = none) :
    save_file (twoSt heap k rc rv d) = (.ok (), twoSt heap k rc rv (some (twoFile k c v))) := by
  unfold save_file
  rw [two_loadForSave hc hv hl hd]
  dsimp only
  have : saveGroup (twoSt heap k rc rv d) = twoFile k c v := by
    funext g
    unfold saveGroup twoFile
    by_cases hg : g = .colden
    · subst hg; simp [twoSt, St.read, hc]
    · by_cases hg' : g = .velocity
      · subst hg'; simp [twoSt, St.read, hv]
      · simp [twoSt, hg, hg']
  rw [this]
  rfl

theorem store_two_colden (heap : List Arr) (k : Key) (rc rv : ℕ) (d : Option HFile) (a : Arr) :
    (twoSt heap k rc rv d).store .colden k a = twoSt (heap ++ [a]) k heap.length rv d := by
  unfold St.store twoSt
  congr 1
  funext g
  by_cases hg : g = .colden
  · subst hg; simp [dictSet]
  · simp [hg]

theorem load_two (k : Key) (c v : Arr) :
    load_savefile (some (twoFile k c v)) = .ok (twoSt [[0], [0]] k 0 1 (some (twoFile k c v))) := by
  unfold load_savefile loadOrder
  simp only [List.foldl_cons, List.foldl_nil, twoFile, reduceCtorEq, if_true, if_false, loadEntry, unpath_path]
  unfold St.store twoSt St.fresh
  simp only [Except.ok.injEq, St.mk.injEq, and_true]
  refine ⟨rfl, ?_⟩
  funext g
  cases g <;> simp [dictSet]

/-- The velocity which `env` computes. -/
theorem ask_velocity {env : Env} {e : String} {i : ℤ} {num c v : Arr} (hn : env.weighted .velocity e i = .ok num)
    (hc : env.compute e i 0 false = .ok c) (hv : env.divide .velocity num (noZero (c.map (· / env.phys))) = .ok v) (d : Option HFile) :
    (Query.velocity e i).run env (St.fresh d) = (.ok 1, twoSt [c, v] ⟨e, i, none⟩ 0 1 d) := by
  set k : Key := ⟨e, i, none⟩ with hk
  change cached .velocity k false (massWeighted env .velocity e i) (St.fresh d) = _
  have h1 : massWeighted env .velocity e i (St.fresh d) = (.ok v, oneSt d k c) := by
    unfold massWeighted
    rw [hn]
    dsimp only
    unfold get_density
    rw [show get_col_density env e i false (St.fresh d) = (.ok 0, oneSt d k c) from ask_fresh hc d]
    dsimp only
    have : (oneSt d k c).read 0 = c := by simp [oneSt, St.store, St.fresh, St.read]
    rw [this, hv]
  change (match massWeighted env .velocity e i (St.fresh d) with
    | (.ok a, s1) => ((Except.ok s1.heap.length : Py ℕ), s1.store .velocity k a)
    | (.error e, s1) => (.error e, s1)) = _
  rw [h1]
  dsimp only
  unfold St.store twoSt
  simp only [Prod.mk.injEq, St.mk.injEq]
  refine ⟨rfl, rfl, ?_, rfl⟩
  funext g
  rw [oneSt_dicts, oneSt_dicts, show (oneSt d k c).heap.length = 1 from rfl]
  cases g <;> simp [dictSet]

/-- C117, finding: a save that fails after the old file was moved away, and then a save by an object that has not read its velocities yet. The
second succeeds, with a zero in place of the velocities, and an object made from the file returns that. -/
theorem velocity_lost {env : Env} {e : String} {i : ℤ} {num c v : Arr} (hn : env.weighted .velocity e i = .ok num)
    (hc : env.compute e i 0 false = .ok c) (hv : env.divide .velocity num (noZero (c.map (· / env.phys))) = .ok v)
    (hlc : 1 < c.length) (hlv : 1 < v.length) :
    answer (play Shared.empty [.create env, .ask 0 (.velocity e i), .save 0, .load env]) 1 (.velocity e i) = some (.ok v) ∧
    answer (play Shared.empty [.create env, .ask 0 (.velocity e i), .save 0, .load env, .ask 1 (.col_density e i false), .saveFails 0,
      .save 1, .load env]) 2 (.velocity e i) = some (.ok [0]) := by
  set k : Key := ⟨e, i, none⟩ with hk
  have p1 : play Shared.empty [.create env, .ask 0 (.velocity e i), .save 0, .load env] =
      ⟨[(env, twoSt [c, v] k 0 1 (some (twoFile k c v))), (env, twoSt [[0], [0]] k 0 1 (some (twoFile k c v)))], some (twoFile k c v)⟩ := by
    change step (step (step ⟨[(env, St.fresh none)], none⟩ (.ask 0 (.velocity e i))) (.save 0)) (.load env) = _
    rw [step_ask (env := env) (s := St.fresh none) rfl]
    change step (step ⟨[(env, (Query.run env (.velocity e i) (St.fresh none)).2)], none⟩ (.save 0)) (.load env) = _
    rw [ask_velocity hn hc hv]
    rw [step_save (env := env) (s := twoSt [c, v] k 0 1 none) rfl]
    change step ⟨[(env, (save_file (twoSt [c, v] k 0 1 none)).2)], (save_file (twoSt [c, v] k 0 1 none)).2.disk⟩ _ = _
    rw [two_save (c := c) (v := v) rfl rfl hlc (.inl hlv)]
    rw [step_load (load_two k c v)]
    rfl
  have hcol : ∀ w, (Query.col_density e i false).run env (twoSt [[0], [0]] k 0 1 (some (twoFile k c w))) =
      (.ok 2, twoSt [[0], [0], c] k 2 1 (some (twoFile k c w))) := by
    intro w
    change cached .colden k false (fun s => (env.compute e i 0 false, s)) _ = _
    have h1 : reallyLoad .colden k (twoSt [[0], [0]] k 0 1 (some (twoFile k c w))) =
        (.ok (), twoSt [[0], [0], c] k 2 1 (some (twoFile k c w))) := by
      unfold reallyLoad
      rw [show ((twoSt [[0], [0]] k 0 1 (some (twoFile k c w))).dicts .colden).lookup k = some 0 by simp [twoSt]]
      dsimp only
      rw [if_neg (by simp [twoSt, St.read])]
      change (match (twoFile k c w .colden).lookup (path k) with
        | none => ((Except.error .keyError : Py Unit), _)
        | some a => (.ok (), (twoSt [[0], [0]] k 0 1 (some (twoFile k c w))).store .colden k a)) = _
      rw [show (twoFile k c w .colden).lookup (path k) = some c by simp [twoFile]]
      dsimp only
      rw [store_two_colden]
      rfl
    unfold cached
    simp only [Bool.false_eq_true, if_false]
    rw [h1]
    dsimp only
    rw [show ((twoSt [[0], [0], c] k 2 1 (some (twoFile k c w))).dicts .colden).lookup k = some 2 by simp [twoSt]]
  have hvel : ∀ w, (Query.velocity e i).answer env (twoSt [[0], [0]] k 0 1 (some (twoFile k c w))) = .ok w := by
    intro w
    rw [answer_eq]
    change valueOf (cached .velocity k false (massWeighted env .velocity e i) _) = _
    have h1 : reallyLoad .velocity k (twoSt [[0], [0]] k 0 1 (some (twoFile k c w))) =
        (.ok (), (twoSt [[0], [0]] k 0 1 (some (twoFile k c w))).store .velocity k w) := by
      unfold reallyLoad
      rw [show ((twoSt [[0], [0]] k 0 1 (some (twoFile k c w))).dicts .velocity).lookup k = some 1 by simp [twoSt]]
      dsimp only
      rw [if_neg (by simp [twoSt, St.read])]
      change (match (twoFile k c w .velocity).lookup (path k) with
        | none => ((Except.error .keyError : Py Unit), _)
        | some a => (.ok (), (twoSt [[0], [0]] k 0 1 (some (twoFile k c w))).store .velocity k a)) = _
      rw [show (twoFile k c w .velocity).lookup (path k) = some w by simp [twoFile]]
    unfold cached
    simp only [Bool.false_eq_true, if_false]
    rw [h1]
    dsimp only
    have he := store_entry (twoSt [[0], [0]] k 0 1 (some (twoFile k c w))) .velocity .velocity k k w
    rw [if_pos ⟨rfl, rfl⟩] at he
    rw [show (((twoSt [[0], [0]] k 0 1 (some (twoFile k c w))).store .velocity k w).dicts .velocity).lookup k = some _ from he]
    change Except.ok (((twoSt [[0], [0]] k 0 1 (some (twoFile k c w))).store .velocity k w).read _) = _
    rw [store_read, if_pos rfl]
  constructor
  · rw [p1]
    exact congrArg some (hvel v)
  · have p2 : play Shared.empty [.create env, .ask 0 (.velocity e i), .save 0, .load env, .ask 1 (.col_density e i false), .saveFails 0,
        .save 1, .load env] =
        ⟨[(env, twoSt [c, v] k 0 1 (some (twoFile k c v))), (env, twoSt [[0], [0], c] k 2 1 (some (twoFile k c [0]))),
          (env, twoSt [[0], [0]] k 0 1 (some (twoFile k c [0])))], some (twoFile k c [0])⟩ := by
      change step (step (step (step (play Shared.empty [.create env, .ask 0 (.velocity e i), .save 0, .load env])
        (.ask 1 (.col_density e i false))) (.saveFails 0)) (.save 1)) (.load env) = _
      rw [p1]
      rw [step_ask (env := env) (s := twoSt [[0], [0]] k 0 1 (some (twoFile k c v))) rfl]
      change step (step (step ⟨[(env, twoSt [c, v] k 0 1 (some (twoFile k c v))),
        (env, ((Query.col_density e i false).run env (twoSt [[0], [0]] k 0 1 (some (twoFile k c v)))).2)], some (twoFile k c v)⟩
        (.saveFails 0)) (.save 1)) (.load env) = _
      rw [hcol]
      have hl0 : loadForSave (twoSt [c, v] k 0 1 (some (twoFile k c v))) = (.ok (), twoSt [c, v] k 0 1 (some (twoFile k c v))) :=
        two_loadForSave (c := c) (v := v) rfl rfl hlc (.inl hlv)
      rw [step_saveFails (w := ⟨[(env, twoSt [c, v] k 0 1 (some (twoFile k c v))), (env, twoSt [[0], [0], c] k 2 1 (some (twoFile k c v)))],
        some (twoFile k c v)⟩) (i := 0) (env := env) (s := twoSt [c, v] k 0 1 (some (twoFile k c v)))
        (s1 := twoSt [c, v] k 0 1 (some (twoFile k c v))) rfl hl0]
      rw [step_save (env := env) (s := twoSt [[0], [0], c] k 2 1 (some (twoFile k c v))) rfl]
      change step ⟨[_, (env, (save_file (twoSt [[0], [0], c] k 2 1 none)).2)], (save_file (twoSt [[0], [0], c] k 2 1 none)).2.disk⟩ _ = _
      rw [two_save (c := c) (v := [0]) rfl rfl hlc (.inr rfl)]
      rw [step_load (load_two k c [0])]
      rfl
    rw [p2]
    exact congrArg some (hvel [0])

/-! Worked cases. -/

/-- Neutral hydrogen along two pixels, with velocities. -/
noncomputable def exTwo : Env where
  compute e i _ _ := if e = "H" ∧ i = 1 then .ok [1, 2] else .error .keyError
  lines _ _ := .ok [1215]
  pick ls := ls.headD []
  phys := 1
  weighted _ _ _ := .ok [30, 80]
  divide _ num den := .ok (List.zipWith (· / ·) num den)

/-- Other sightlines. -/
noncomputable def exOther : Env := { exTwo with compute := fun e i _ _ => if e = "H" ∧ i = 1 then .ok [5, 6, 7] else .error .keyError }

example := other_sightlines (env1 := exTwo) (env2 := exOther) (e := "H") (i := 1) (a := [1, 2]) (b := [5, 6, 7]) (by simp [exTwo])
  (by simp [exOther]) (by simp) (by simp)

example := lost_update (env := exTwo) (e := "H") (i := 1) (a := [1, 2]) (by simp [exTwo]) (by simp)

example := velocity_lost (env := exTwo) (e := "H") (i := 1) (num := [30, 80]) (c := [1, 2]) (v := [30 / 1, 80 / 2]) rfl (by simp [exTwo])
  (by simp [exTwo, noZero]) (by simp) (by simp)

theorem exTwo_expected (g : Grp) (k : Key) (a : Arr) (h : expected exTwo g k = .ok a) : 1 < a.length := by
  have hc : ∀ e i l b a, exTwo.compute e i l b = .ok a → a = [1, 2] := by
    intro e i l b a h
    unfold exTwo at h
    dsimp only at h
    split at h
    · exact (Except.ok.inj h).symm
    · cases h
  obtain ⟨e, i, l⟩ := k
  have hw : ∀ g, (do
      let num ← exTwo.weighted g e i
      let c ← exTwo.compute e i 0 false
      exTwo.divide g num (noZero (c.map (· / exTwo.phys)))) = .ok a → 1 < a.length := by
    intro g h
    cases hcc : exTwo.compute e i 0 false with
    | error x => rw [hcc] at h; cases h
    | ok c =>
      rw [hcc] at h
      have := hc _ _ _ _ _ hcc
      subst this
      have h' := Except.ok.inj (show (Except.ok (List.zipWith (· / ·) [30, 80] (noZero ([1, 2].map (· / exTwo.phys)))) : Py Arr) = _ from h)
      rw [← h']
      simp [noZero]
  cases l with
  | none =>
    cases g with
    | colden => rw [hc _ _ _ _ _ h]; simp
    | tau_obs =>
      have h' : (exTwo.lines e i >>= fun ls => ls.mapM (fun l => exTwo.compute e i l true) >>= fun taus => pure (exTwo.pick taus)) =
        Except.ok a := h
      have h'' : ([1215].mapM (fun l => exTwo.compute e i l true) >>= fun taus => pure (exTwo.pick taus)) = (Except.ok a : Py Arr) := h'
      cases hcc : exTwo.compute e i 1215 true with
      | error x => simp [hcc, bind, Except.bind] at h''
      | ok c =>
        have := hc _ _ _ _ _ hcc
        subst this
        have hm : [1215].mapM (fun l => exTwo.compute e i l true) = (Except.ok [[1, 2]] : Py (List Arr)) := by
          rw [List.mapM_cons, hcc]; rfl
        rw [hm] at h''
        have h3 : (Except.ok [1, 2] : Py Arr) = .ok a := h''
        rw [← Except.ok.inj h3]
        simp
    | velocity => exact hw _ h
    | temperature => exact hw _ h
    | density_weight_density => exact hw _ h
    | tau => cases h
    | num_important => cases h
  | some l =>
    cases g with
    | tau => rw [hc _ _ _ _ _ h]; simp
    | _ => cases h

theorem exTwo_sizes : Sizes exTwo := fun q a h => exTwo_expected _ _ a (by rw [fresh_answer] at h; exact h)

/-- A history of three objects, one without the snapshot, with a save that fails. -/
noncomputable def exHistory : List Event :=
  [.create exTwo, .ask 0 (.velocity "H" 1), .save 0, .load exTwo.noSnapshot, .load exTwo, .saveFails 2, .save 0]

theorem exHistory_one : OfOne exTwo exHistory := by
  intro ev hev env2 he
  simp only [exHistory, List.mem_cons, List.not_mem_nil, or_false] at hev
  rcases hev with rfl | rfl | rfl | rfl | rfl | rfl | rfl <;> rcases he with he | he <;> cases he
  · exact Env.le_refl _
  · exact noSnapshot_le _
  · exact Env.le_refl _

/-- Whatever an object gives after it. -/
example {i : ℕ} {a : Arr} (h : answer (play Shared.empty exHistory) i (.col_density "H" 1 false) = some (.ok a)) : a = [1, 2] := by
  have := shared_right exTwo_sizes exHistory_one (q := .col_density "H" 1 false) trivial h
  rw [fresh_answer] at this
  change exTwo.compute "H" 1 0 false = _ at this
  simpa [exTwo] using this.symm

/-- A temperature, after a history in which one save failed. -/
example {i : ℕ} {a : Arr} (h : answer (play Shared.empty exHistory) i (.temp "H" 1) = some (.ok a)) (hl : 1 < a.length) :
    (Query.temp "H" 1).answer exTwo (St.fresh none) = .ok a := shared_long exTwo_sizes exHistory_one h hl

/-- The first history of `velocity_lost` has no failure, and its object 1 answers. -/
example : ∃ a, answer (play Shared.empty [.create exTwo, .ask 0 (.velocity "H" 1), .save 0, .load exTwo]) 1 (.velocity "H" 1) =
    some (.ok a) ∧ (Query.velocity "H" 1).answer exTwo (St.fresh none) = .ok a := by
  have h := (velocity_lost (env := exTwo) (e := "H") (i := 1) (num := [30, 80]) (c := [1, 2]) (v := [30 / 1, 80 / 2]) rfl
    (by simp [exTwo]) (by simp [exTwo, noZero]) (by simp) (by simp)).1
  refine ⟨_, h, shared_velocity_partial (q := .velocity "H" 1) exTwo_sizes ?_ ?_ trivial h⟩
  · intro ev hev env2 he
    simp only [List.mem_cons, List.not_mem_nil, or_false] at hev
    rcases hev with rfl | rfl | rfl | rfl <;> rcases he with he | he <;> cases he <;> exact Env.le_refl _
  · intro i hi
    simp at hi

/-- The file after the first save of `lost_update`'s second object; two objects opened on it, one of which saves. -/
example : answer (play (reopened (play Shared.empty [.create exTwo, .ask 0 (.col_density "H" 1 false), .save 0]))
    [.load exTwo.noSnapshot, .load exTwo, .ask 1 (.tau "H" 1 1215 false), .save 1]) 0 (.col_density "H" 1 false) = some (.ok [1, 2]) := by
  have p : play Shared.empty [.create exTwo, .ask 0 (.col_density "H" 1 false), .save 0] =
      ⟨[(exTwo, { oneSt none ⟨"H", 1, none⟩ [1, 2] with disk := some (oneFile ⟨"H", 1, none⟩ [1, 2]) })],
        some (oneFile ⟨"H", 1, none⟩ [1, 2])⟩ := by
    change step (step ⟨[(exTwo, St.fresh none)], none⟩ (.ask 0 (.col_density "H" 1 false))) (.save 0) = _
    rw [step_ask (env := exTwo) (s := St.fresh none) rfl]
    change step ⟨[(exTwo, (Query.run exTwo (.col_density "H" 1 false) (St.fresh none)).2)], none⟩ (.save 0) = _
    rw [ask_fresh (a := [1, 2]) (by simp [exTwo])]
    rw [step_save (env := exTwo) (s := oneSt none ⟨"H", 1, none⟩ [1, 2]) rfl]
    change World.mk [(exTwo, (save_file { oneSt none ⟨"H", 1, none⟩ [1, 2] with disk := none }).2)]
      (save_file { oneSt none ⟨"H", 1, none⟩ [1, 2] with disk := none }).2.disk = _
    rw [oneSt_save (by simp)]
  have hload : ∀ env, step (reopened (play Shared.empty [.create exTwo, .ask 0 (.col_density "H" 1 false), .save 0])) (.load env) =
      ⟨[(env, oneSt (some (oneFile ⟨"H", 1, none⟩ [1, 2])) ⟨"H", 1, none⟩ [0])], some (oneFile ⟨"H", 1, none⟩ [1, 2])⟩ := by
    intro env
    rw [p]
    exact step_load (load_one ⟨"H", 1, none⟩ [1, 2])
  refine opened_answers exTwo_sizes (fun e i h => by simp [exTwo] at h) (es0 := [.create exTwo, .ask 0 (.col_density "H" 1 false), .save 0])
    ?_ ?_ (q := .col_density "H" 1 false) rfl (.inl trivial) ?_ ?_ ?_ ?_ ?_
  · intro ev hev env2 he
    simp only [List.mem_cons, List.not_mem_nil, or_false] at hev
    rcases hev with rfl | rfl | rfl <;> rcases he with he | he <;> cases he
    exact Env.le_refl _
  · intro i hi; simp at hi
  · change answer (step (reopened _) (.load exTwo.noSnapshot)) 0 _ = _
    rw [hload]
    exact congrArg some (ask_placeholder exTwo.noSnapshot "H" 1 _ [1, 2])
  · intro ev hev env2 he
    simp only [List.mem_cons, List.not_mem_nil, or_false] at hev
    rcases hev with rfl | rfl | rfl | rfl <;> rcases he with he | he <;> cases he
    · exact noSnapshot_le _
    · exact Env.le_refl _
  · intro i hi; simp at hi
  · intro env2 h; simp at h
  · have hlen : ∀ (es : List Event) (w : World), w.objs.length ≤ (play w es).objs.length := by
      intro es
      induction es with
      | nil => intro w; exact le_rfl
      | cons ev es ih =>
        intro w
        refine le_trans ?_ (ih (step w ev))
        cases ev with
        | create env => simp [step]
        | load env => simp only [step]; split <;> simp
        | ask i q => simp only [step]; split <;> simp
        | save i => simp only [step]; split <;> simp
        | saveFails i =>
          simp only [step]
          split
          · simp
          · split <;> simp
    refine lt_of_lt_of_le ?_ (hlen [.load exTwo, .ask 1 (.tau "H" 1 1215 false), .save 1] (step (reopened (play Shared.empty
      [.create exTwo, .ask 0 (.col_density "H" 1 false), .save 0])) (.load exTwo.noSnapshot)))
    rw [hload]
    simp

/-- An array that was returned, whatever happens to the file. -/
example : answer (play (step (play Shared.empty [.create exTwo]) (.ask 0 (.col_density "H" 1 false)))
    [.create exOther, .ask 1 (.col_density "H" 1 false), .save 1, .saveFails 1]) 0 (.col_density "H" 1 false) = some (.ok [1, 2]) := by
  have h : answer (play Shared.empty [.create exTwo]) 0 (.col_density "H" 1 false) = some (.ok [1, 2]) := by
    refine congrArg some ((fresh_answer exTwo (.col_density "H" 1 false) none).trans ?_)
    change exTwo.compute "H" 1 0 false = _
    simp [exTwo]
  exact answered_stays _ (q := .col_density "H" 1 false) rfl h (by simp) (fun q' h => by simp at h)

end Verif.Props.Shared
