import Verif.Model.Overlap
import Verif.Props.Shared
import Mathlib.Tactic.IntervalCases

/-!
C118: saving while others read or save.
-/

namespace Verif.Props.Overlap
open Verif Verif.Store Verif.Shared Verif.Overlap Verif.Props.Shared

/-! Specification. -/

/-- Every object that is made has the simulation and the sightlines of `env`, with or without the snapshot. -/
def SameSim (env : Env) (es : List Ev) : Prop :=
  ∀ ev ∈ es, ∀ env2, ev = .create env2 ∨ ev = .load env2 → SameOrMissing env2 env

/-- No save begins before the one before it has ended; after a process has died in its save, there are no more saves. -/
def OneByOne (es : List Ev) : Prop :=
  ∀ es1 ev es2, es = es1 ++ ev :: es2 → (∃ i, ev = .begin i) → (run nothing es1).busy = []

/-- The file can be read and has exactly the arrays of `f`. -/
def Holds (x : Option Slot) (f : HFile) : Prop := x = some (.complete f)

/-- The file which object `i` is to write: the arrays it has. -/
noncomputable def arraysOf (w : Sys) (i : ℕ) : Option HFile := w.objs[i]?.map fun o => saveGroup o.2

/-- Object `i` has created its file and not closed it. -/
def Writes (w : Sys) (i : ℕ) : Prop := i ∈ w.busy ∧ w.phase i = .opened

theorem arraysOf_objs {w v : Sys} {i : ℕ} (h : v.objs = w.objs) : arraysOf v i = arraysOf w i := by
  unfold arraysOf
  rw [h]

theorem arraysOf_app {w v : Sys} {i : ℕ} {f : HFile} (h : arraysOf w i = some f) {l : List (Env × St)} (hv : v.objs = w.objs ++ l) :
    arraysOf v i = some f := by
  unfold arraysOf at h ⊢
  obtain ⟨o, ho, rfl⟩ := Option.map_eq_some_iff.1 h
  have hlt : i < w.objs.length := (List.getElem?_eq_some_iff.1 ho).1
  rw [hv, List.getElem?_append_left hlt, ho]
  rfl

theorem arraysOf_set {w v : Sys} {i j : ℕ} {f : HFile} (h : arraysOf w i = some f) (hij : j ≠ i) {o : Env × St} (hv : v.objs = w.objs.set j o) :
    arraysOf v i = some f := by
  unfold arraysOf at h ⊢
  rw [hv, List.getElem?_set_ne hij]
  exact h

theorem load_objs (w : World) (env : Env) : ∃ l, (step w (.load env)).objs = w.objs ++ l := by
  cases hd : load_savefile w.disk with
  | error e => rw [step_load_fails hd]; exact ⟨[], by simp⟩
  | ok s => rw [step_load hd]; exact ⟨_, rfl⟩

theorem ask_objs (w : World) (i : ℕ) (q : Query) : (step w (.ask i q)).objs = w.objs ∨ ∃ o, (step w (.ask i q)).objs = w.objs.set i o := by
  cases hi : w.objs[i]? with
  | none => rw [(step_nobody hi).1]; exact .inl rfl
  | some o => obtain ⟨env2, s⟩ := o; rw [step_ask hi]; exact .inr ⟨_, rfl⟩

theorem doMove_objs (w : Sys) (i : ℕ) : (doMove w i).objs = w.objs := by
  unfold doMove
  split <;> rfl

theorem doMake_objs (w : Sys) (i : ℕ) : (doMake w i).objs = w.objs := by
  unfold doMake
  split <;> rfl

/-- An object that is saving keeps its arrays. -/
theorem next_arrays {w : Sys} {i : ℕ} {f : HFile} (hb : i ∈ w.busy) (h : arraysOf w i = some f) (ev : Ev) : arraysOf (next w ev) i = some f := by
  cases ev with
  | create env2 => exact arraysOf_app h rfl
  | load env2 =>
    obtain ⟨l, hl⟩ := load_objs (view w) env2
    exact arraysOf_app h (l := l) hl
  | ask j q =>
    unfold next
    dsimp only
    split
    · exact h
    · rename_i hj
      have hji : j ≠ i := fun he => hj (he ▸ hb)
      rcases ask_objs (view w) j q with ho | ⟨o, ho⟩
      · rw [arraysOf_objs (w := w) ho]; exact h
      · exact arraysOf_set h hji ho
  | begin j =>
    unfold next
    dsimp only
    split
    · exact h
    · rename_i hj
      have hji : j ≠ i := fun he => hj (he ▸ hb)
      split
      · exact h
      · split
        · exact arraysOf_set h hji rfl
        · exact arraysOf_set h hji rfl
  | move j =>
    unfold next
    dsimp only
    split
    · rw [arraysOf_objs (doMove_objs w j)]; exact h
    · exact h
  | make j =>
    unfold next
    dsimp only
    split
    · rw [arraysOf_objs (doMake_objs w j)]; exact h
    · exact h
  | fails j =>
    unfold next
    dsimp only
    split <;> exact h
  | finish j =>
    unfold next
    dsimp only
    split <;> exact h

/-- A save that can load its arrays begins. -/
theorem next_begin_ok {w : Sys} {i : ℕ} {env : Env} {s s1 : St} {u : Unit} (hb : i ∉ w.busy) (hi : w.objs[i]? = some (env, s))
    (hld : loadForSave (seenBy (view w) s) = (.ok u, s1)) :
    next w (.begin i) = ⟨w.objs.set i (env, s1), w.main, w.backup, i :: w.busy, Function.update w.phase i (check w.main)⟩ := by
  unfold next
  simp [hb, hi, hld]

/-! The invariant. -/

def SlotOk (env : Env) : Slot → Prop
  | .writing _ f | .complete f => DiskOk (truth env) False (some f) ∧ DiskWeak (truth env) (some f)

structure SysOk (env : Env) (w : Sys) : Prop where
  view : WWeak env (view w)
  busy : ∀ i ∈ w.busy, ∃ f, arraysOf w i = some f ∧ SlotOk env (.complete f)
  main : ∀ x, w.main = some x → SlotOk env x
  backup : ∀ x, w.backup = some x → SlotOk env x

theorem closed_ok {env : Env} {i : ℕ} {x : Slot} (h : SlotOk env x) : SlotOk env (closed i x) := by
  cases x with
  | complete f => exact h
  | writing j f =>
    rw [closed]
    split <;> exact h

/-- Only what can be read changes. -/
theorem weak_newDisk {env : Env} {w : World} (h : WWeak env w) {d : Option HFile} (h1 : DiskOk (truth env) False d)
    (h2 : DiskWeak (truth env) d) : WWeak env ⟨w.objs, d⟩ :=
  ⟨⟨h1, fun o ho => ⟨(h.inv.objs o ho).1, (h.inv.objs o ho).2.1, fun h => h.elim⟩⟩, h2, h.objs⟩

theorem readable_ok {env : Env} {x : Option Slot} (h : ∀ y, x = some y → SlotOk env y) :
    DiskOk (truth env) False (readable x) ∧ DiskWeak (truth env) (readable x) := by
  cases x with
  | none => exact ⟨fun f h => (by cases h), fun f h => (by cases h)⟩
  | some y =>
    cases y with
    | writing j f => exact ⟨fun f h => (by cases h), fun f h => (by cases h)⟩
    | complete f => exact h _ rfl

theorem next_ok {env : Env} (hsz : Sized env) {w : Sys} (h : SysOk env w) {ev : Ev}
    (hev : ∀ env2, ev = .create env2 ∨ ev = .load env2 → env2.le env) : SysOk env (next w ev) := by
  have hd := readable_ok h.main
  have keep : ∀ i ∈ w.busy, ∃ f, arraysOf (next w ev) i = some f ∧ SlotOk env (.complete f) := by
    intro i hi
    obtain ⟨f, h1, h2⟩ := h.busy i hi
    exact ⟨f, next_arrays hi h1 ev, h2⟩
  cases ev with
  | create env2 =>
    have h1 := step_weak hsz h.view (ev := .create env2) (fun e he => hev e (by rcases he with he | he <;> cases he; exact .inl rfl))
    exact ⟨weak_newDisk h1 hd.1 hd.2, keep, h.main, h.backup⟩
  | load env2 =>
    have h1 := step_weak hsz h.view (ev := .load env2) (fun e he => hev e (by rcases he with he | he <;> cases he; exact .inr rfl))
    exact ⟨weak_newDisk h1 hd.1 hd.2, keep, h.main, h.backup⟩
  | ask i q =>
    have h1 := step_weak hsz h.view (ev := .ask i q) (fun e he => by rcases he with he | he <;> cases he)
    unfold next at keep ⊢
    dsimp only at keep ⊢
    by_cases hi : i ∈ w.busy
    · rw [if_pos hi]; exact h
    · rw [if_neg hi] at keep ⊢
      exact ⟨weak_newDisk h1 hd.1 hd.2, keep, h.main, h.backup⟩
  | begin i =>
    have h1 := step_weak hsz h.view (ev := .saveFails i) (fun e he => by rcases he with he | he <;> cases he)
    by_cases hb : i ∈ w.busy
    · have hn : next w (.begin i) = w := by unfold next; simp [hb]
      rw [hn]; exact h
    · cases hi : w.objs[i]? with
      | none =>
        have hn : next w (.begin i) = w := by unfold next; simp [hb, hi]
        rw [hn]; exact h
      | some o =>
        obtain ⟨env2, s⟩ := o
        have hi' : (view w).objs[i]? = some (env2, s) := hi
        obtain ⟨hle, hs⟩ := seen_soft h.view.inv hi'
        have g1 := (save_soft hs h.view.inv.disk).2.1
        have g2 := (weak_save hs h.view.inv.disk (show Weak (truth env) (seenBy (view w) s) from
          h.view.objs _ (List.mem_of_getElem? hi')) h.view.disk).2
        unfold save_file at g1 g2
        cases hld : loadForSave (seenBy (view w) s) with | mk res s1 => _
        rw [hld] at g1 g2
        cases res with
        | error e =>
          have hn : next w (.begin i) = { w with objs := w.objs.set i (env2, s1) } := by unfold next; simp [hb, hi, hld]
          rw [step_saveFails_load hi' hld] at h1
          rw [hn] at keep ⊢
          exact ⟨weak_newDisk h1 hd.1 hd.2, keep, h.main, h.backup⟩
        | ok _ =>
          have hn := next_begin_ok hb hi hld
          rw [step_saveFails hi' hld] at h1
          rw [hn] at keep ⊢
          refine ⟨weak_newDisk h1 hd.1 hd.2, ?_, h.main, h.backup⟩
          intro j hj
          rcases List.mem_cons.1 hj with rfl | hj
          · refine ⟨saveGroup s1, ?_, g1, g2⟩
            have hlt : j < w.objs.length := (List.getElem?_eq_some_iff.1 hi).1
            unfold arraysOf
            dsimp only
            rw [List.getElem?_set_self hlt]
            rfl
          · exact keep j hj
  | move i =>
    unfold next at keep ⊢
    dsimp only at keep ⊢
    split
    · rename_i hc
      rw [if_pos hc] at keep
      unfold doMove at keep ⊢
      cases hm : w.main with
      | none =>
        rw [hm] at keep
        refine ⟨?_, fun j hj => keep j (List.mem_of_mem_filter hj), fun y hy => (by cases hy), h.backup⟩
        exact weak_newDisk h.view (fun f hf => (by cases hf)) (fun f hf => (by cases hf))
      | some x =>
        rw [hm] at keep
        refine ⟨weak_newDisk h.view (fun f hf => (by cases hf)) (fun f hf => (by cases hf)), keep, fun y hy => (by cases hy), ?_⟩
        intro y hy
        cases hy
        exact h.main _ hm
    · exact h
  | make i =>
    unfold next at keep ⊢
    dsimp only at keep ⊢
    split
    · rename_i hc
      rw [if_pos hc] at keep
      unfold doMake at keep ⊢
      obtain ⟨f, hf, hok⟩ := h.busy i hc.1
      unfold arraysOf at hf
      cases ho : w.objs[i]? with
      | none => exact h
      | some o =>
        rw [ho] at keep hf
        cases hf
        refine ⟨weak_newDisk h.view (fun f hf => (by cases hf)) (fun f hf => (by cases hf)), keep, ?_, h.backup⟩
        intro y hy
        cases hy
        exact hok
    · exact h
  | fails i =>
    unfold next at keep ⊢
    dsimp only at keep ⊢
    split
    · rename_i hc
      rw [if_pos hc] at keep
      exact ⟨h.view, fun j hj => keep j (List.mem_of_mem_filter hj), h.main, h.backup⟩
    · exact h
  | finish i =>
    unfold next at keep ⊢
    dsimp only at keep ⊢
    split
    · rename_i hc
      rw [if_pos hc] at keep
      have hm : ∀ {y : Option Slot}, (∀ x, y = some x → SlotOk env x) → ∀ x, y.map (closed i) = some x → SlotOk env x := by
        intro y hy x hx
        obtain ⟨z, hz, rfl⟩ := Option.map_eq_some_iff.1 hx
        exact closed_ok (hy z hz)
      have hd2 := readable_ok (hm h.main)
      exact ⟨weak_newDisk h.view hd2.1 hd2.2, fun j hj => keep j (List.mem_of_mem_filter hj), hm h.main, hm h.backup⟩
    · exact h

theorem run_ok {env : Env} (hsz : Sized env) {es : List Ev} (hes : SameSim env es) : SysOk env (run nothing es) := by
  have H : ∀ (es : List Ev) (w : Sys), SysOk env w → SameSim env es → SysOk env (run w es) := by
    intro es
    induction es with
    | nil => intro w h _; exact h
    | cons ev es ih =>
      intro w h1 h2
      exact ih (next w ev) (next_ok hsz h1 (fun env2 he => h2 ev (by simp) env2 he)) (fun e he => h2 e (by simp [he]))
  exact H es nothing ⟨⟨empty_inv env False, fun f h => (by cases h), fun o h => (by cases h)⟩, fun i h => (by cases h), fun x h => (by cases h),
    fun x h => (by cases h)⟩ hes

theorem reply_answer {w : Sys} {i : ℕ} {q : Query} {x : Py Arr} (h : reply w i q = some x) : i ∉ w.busy ∧ answer (view w) i q = some x := by
  unfold reply at h
  split at h
  · cases h
  · exact ⟨‹_›, h⟩

/-- C118: objects of one simulation read and save a savefile while others are saving it. Whatever the order, and whoever dies in a save, a column
density or an optical depth that is returned is the one which a new object computes. -/
theorem overlap_right {env : Env} (hs : Sizes env) {es : List Ev} (hes : SameSim env es) {i : ℕ} {q : Query} (hq : Absorption q)
    {a : Arr} (h : reply (run nothing es) i q = some (.ok a)) : q.answer env (St.fresh none) = .ok a := by
  have hsz := sized_of_queries hs
  refine answer_right (V := False) hsz (run_ok hsz hes).view.inv ?_ (reply_answer h).2
  cases q with
  | col_density => exact .inr (.inr (.inl rfl))
  | tau => exact .inr (.inl rfl)
  | observer_tau => exact .inl rfl
  | _ => exact hq.elim

/-- C118: and so is any array of more than one element, of any query. -/
theorem overlap_long {env : Env} (hs : Sizes env) {es : List Ev} (hes : SameSim env es) {i : ℕ} {q : Query} {a : Arr}
    (h : reply (run nothing es) i q = some (.ok a)) (hl : 1 < a.length) : q.answer env (St.fresh none) = .ok a := by
  have hsz := sized_of_queries hs
  have hw := (run_ok hsz hes).view
  have h := (reply_answer h).2
  unfold answer at h
  cases hi : (view (run nothing es)).objs[i]? with
  | none => rw [hi] at h; cases h
  | some o =>
    obtain ⟨env2, s⟩ := o
    rw [hi] at h
    obtain ⟨hle, hsoft⟩ := seen_soft hw.inv hi
    have h1 := (weak_run hle hsz hsoft hw.inv.disk (show Weak (truth env) (seenBy (view (run nothing es)) s) from
      hw.objs _ (List.mem_of_getElem? hi)) hw.disk q).2 a (Option.some.inj h)
    rw [fresh_answer]
    rcases h1 with h1 | h1
    · omega
    · exact (truth_iff env _ _ a).1 h1

/-! Arrays which were returned. -/

theorem next_objs (w : Sys) (ev : Ev) : (next w ev).objs = w.objs ∨ (∃ env, ev = .create env ∧ (next w ev).objs = (step (view w) (.create env)).objs) ∨
    (∃ env, ev = .load env ∧ (next w ev).objs = (step (view w) (.load env)).objs) ∨
    (∃ i q, ev = .ask i q ∧ (next w ev).objs = (step (view w) (.ask i q)).objs) ∨
    ∃ i, (next w ev).objs = (step (view w) (.saveFails i)).objs := by
  cases ev with
  | create env => exact .inr (.inl ⟨env, rfl, rfl⟩)
  | load env => exact .inr (.inr (.inl ⟨env, rfl, rfl⟩))
  | ask i q =>
    unfold next
    dsimp only
    split
    · exact .inl rfl
    · exact .inr (.inr (.inr (.inl ⟨i, q, rfl, rfl⟩)))
  | begin i =>
    by_cases hj : i ∈ w.busy
    · left; unfold next; simp [hj]
    · cases hi : w.objs[i]? with
      | none => left; unfold next; simp [hj, hi]
      | some o =>
        obtain ⟨env2, s⟩ := o
        right; right; right; right
        refine ⟨i, ?_⟩
        cases hld : loadForSave (seenBy (view w) s) with | mk res s1 => _
        cases res with
        | error e => rw [step_saveFails_load hi hld]; unfold next; simp [hj, hi, hld]; rfl
        | ok u => rw [step_saveFails hi hld]; unfold next; simp [hj, hi, hld]; rfl
  | move i =>
    unfold next
    dsimp only
    split
    · exact .inl (doMove_objs w i)
    · exact .inl rfl
  | make i =>
    unfold next
    dsimp only
    split
    · exact .inl (doMake_objs w i)
    · exact .inl rfl
  | fails i =>
    unfold next
    dsimp only
    split <;> exact .inl rfl
  | finish i =>
    unfold next
    dsimp only
    split <;> exact .inl rfl

/-- C118: once an object has returned an array, it returns that array again whenever it is not busy saving, until it is told to compute it anew,
whoever saves meanwhile and whoever dies. -/
theorem overlap_stays (w : Sys) {i : ℕ} {q : Query} (hp : Plain q) {a : Arr} (h : reply w i q = some (.ok a)) (hl : 1 < a.length)
    {es : List Ev} (hes : ∀ q', Ev.ask i q' ∈ es → ¬ Recomputes q q') (hb : i ∉ (run (next w (.ask i q)) es).busy) :
    reply (run (next w (.ask i q)) es) i q = some (.ok a) := by
  obtain ⟨hnb, h⟩ := reply_answer h
  have h0 : ∃ env s, (next w (.ask i q)).objs[i]? = some (env, s) ∧ Held s q.slot.1 q.slot.2 a := by
    unfold next
    dsimp only
    rw [if_neg hnb]
    unfold answer at h
    cases hi : (view w).objs[i]? with
    | none => rw [hi] at h; cases h
    | some o =>
      obtain ⟨env, s⟩ := o
      dsimp only
      rw [step_ask hi]
      rw [hi] at h
      have hlt : i < (view w).objs.length := (List.getElem?_eq_some_iff.1 hi).1
      exact ⟨env, _, by rw [List.getElem?_set_self hlt], run_held (Option.some.inj h)⟩
  have H : ∀ (es : List Ev) (w : Sys), (∃ env s, w.objs[i]? = some (env, s) ∧ Held s q.slot.1 q.slot.2 a) →
      (∀ q', Ev.ask i q' ∈ es → ¬ Recomputes q q') →
      ∃ env s, (run w es).objs[i]? = some (env, s) ∧ Held s q.slot.1 q.slot.2 a := by
    intro es
    induction es with
    | nil => intro w h _; exact h
    | cons ev es ih =>
      intro w h hes
      refine ih (next w ev) ?_ (fun q' hq' => hes q' (by simp [hq']))
      have h' : ∃ env s, (view w).objs[i]? = some (env, s) ∧ Held s q.slot.1 q.slot.2 a := h
      rcases next_objs w ev with ho | ⟨env, -, ho⟩ | ⟨env, -, ho⟩ | ⟨j, q', rfl, ho⟩ | ⟨j, ho⟩
      · rw [ho]; exact h
      · rw [ho]; exact step_held hl h' _ (fun q' hq' => by cases hq')
      · rw [ho]; exact step_held hl h' _ (fun q' hq' => by cases hq')
      · rw [ho]
        refine step_held hl h' _ (fun q'' hq' hsl => ?_)
        cases hq'
        have := hes q' (by simp)
        cases hf : q'.forced with
        | false => rfl
        | true =>
          exfalso
          apply this
          cases q <;> cases q' <;> simp_all [Query.slot, Query.forced, Recomputes]
      · rw [ho]; exact step_held hl h' _ (fun q' hq' => by cases hq')
  obtain ⟨env, s, h1, h2⟩ := H es _ h0 hes
  have h3 : Held (seenBy (view (run (next w (.ask i q)) es)) s) q.slot.1 q.slot.2 a := h2
  unfold reply
  rw [if_neg hb]
  unfold answer
  change (match (run (next w (.ask i q)) es).objs[i]? with
    | none => none
    | some (env, s) => some (q.answer env (seenBy (view (run (next w (.ask i q)) es)) s))) = _
  rw [h1]
  exact congrArg some ((held_run hl h3 env q (fun _ => plain_forced hp)).2 rfl)

/-! The last save that has ended. -/

/-- Saves are one by one: nobody is saving, or one object is, and the files are as it has left them. -/
def Alone (w : Sys) : Prop :=
  (∀ j, w.busy = [j] → w.phase j = .found → w.main ≠ none) ∧
  (∀ j, w.busy = [j] → w.phase j = .ready → w.main = none) ∧
  (∀ j, w.busy = [j] → w.phase j = .opened → ∃ f, w.main = some (.writing j f) ∧ arraysOf w j = some f) ∧
  (w.busy = [] ∨ ∃ j, w.busy = [j])

theorem filter_one {j : ℕ} : [j].filter (· ≠ j) = [] := by simp

/-- What an event does to the files and to who is saving. -/
theorem next_disk (w : Sys) (ev : Ev) :
    ((next w ev).main = w.main ∧ (next w ev).backup = w.backup ∧ (next w ev).busy = w.busy ∧ (next w ev).phase = w.phase) ∨
    (∃ i, ev = .begin i ∧ i ∉ w.busy ∧ (next w ev).main = w.main ∧ (next w ev).backup = w.backup ∧ (next w ev).busy = i :: w.busy ∧
      (next w ev).phase i = check w.main) ∨
    (∃ i, ev = .move i ∧ i ∈ w.busy ∧ w.phase i = .found ∧ next w ev = doMove w i) ∨
    (∃ i, ev = .make i ∧ i ∈ w.busy ∧ w.phase i = .ready ∧ next w ev = doMake w i) ∨
    (∃ i, ev = .fails i ∧ i ∈ w.busy ∧ w.phase i = .ready ∧ (next w ev).main = w.main ∧ (next w ev).backup = w.backup ∧
      (next w ev).busy = w.busy.filter (· ≠ i)) ∨
    (∃ i, ev = .finish i ∧ i ∈ w.busy ∧ w.phase i = .opened ∧ (next w ev).main = w.main.map (closed i) ∧
      (next w ev).backup = w.backup.map (closed i) ∧ (next w ev).busy = w.busy.filter (· ≠ i)) := by
  cases ev with
  | create env2 => exact .inl ⟨rfl, rfl, rfl, rfl⟩
  | load env2 => exact .inl ⟨rfl, rfl, rfl, rfl⟩
  | ask j q =>
    unfold next
    dsimp only
    split <;> exact .inl ⟨rfl, rfl, rfl, rfl⟩
  | begin j =>
    by_cases hj : j ∈ w.busy
    · left; unfold next; simp [hj]
    · cases hi : w.objs[j]? with
      | none => left; unfold next; simp [hj, hi]
      | some o =>
        obtain ⟨env2, s⟩ := o
        cases hld : loadForSave (seenBy (view w) s) with | mk res s1 => _
        cases res with
        | error e => left; unfold next; simp [hj, hi, hld]
        | ok u =>
          right; left
          refine ⟨j, rfl, hj, ?_⟩
          rw [next_begin_ok hj hi hld]
          exact ⟨rfl, rfl, rfl, by simp⟩
  | move j =>
    by_cases hj : j ∈ w.busy ∧ w.phase j = .found
    · right; right; left
      refine ⟨j, rfl, hj.1, hj.2, ?_⟩
      unfold next; simp [hj]
    · left; unfold next; simp [hj]
  | make j =>
    by_cases hj : j ∈ w.busy ∧ w.phase j = .ready
    · right; right; right; left
      refine ⟨j, rfl, hj.1, hj.2, ?_⟩
      unfold next; simp [hj]
    · left; unfold next; simp [hj]
  | fails j =>
    by_cases hj : j ∈ w.busy ∧ w.phase j = .ready
    · right; right; right; right; left
      refine ⟨j, rfl, hj.1, hj.2, ?_⟩
      unfold next; simp [hj]
    · left; unfold next; simp [hj]
  | finish j =>
    by_cases hj : j ∈ w.busy ∧ w.phase j = .opened
    · right; right; right; right; right
      refine ⟨j, rfl, hj.1, hj.2, ?_⟩
      unfold next; simp [hj]
    · left; unfold next; simp [hj]

theorem alone_none {w : Sys} (h : w.busy = []) : Alone w :=
  ⟨fun j hj => (by rw [h] at hj; cases hj), fun j hj => (by rw [h] at hj; cases hj), fun j hj => (by rw [h] at hj; cases hj), .inl h⟩

theorem alone_busy {w : Sys} (h : Alone w) {j : ℕ} (hj : j ∈ w.busy) : w.busy = [j] := by
  rcases h.2.2.2 with h | ⟨i, h⟩
  · rw [h] at hj; cases hj
  · rw [h, List.mem_singleton] at hj
    rw [h, hj]

theorem doMake_some {w : Sys} {i : ℕ} {f : HFile} (h : arraysOf w i = some f) :
    doMake w i = { w with main := some (.writing i f), phase := Function.update w.phase i .opened } := by
  unfold arraysOf at h
  unfold doMake
  cases ho : w.objs[i]? with
  | none => rw [ho] at h; cases h
  | some o => rw [ho] at h; cases h; rfl

/-- Whoever is saving has arrays. -/
def HasArrays (w : Sys) : Prop := ∀ i ∈ w.busy, ∃ f, arraysOf w i = some f

theorem next_hasArrays {w : Sys} (h : HasArrays w) (ev : Ev) : HasArrays (next w ev) := by
  have keep : ∀ i ∈ w.busy, ∃ f, arraysOf (next w ev) i = some f := by
    intro i hi
    obtain ⟨f, hf⟩ := h i hi
    exact ⟨f, next_arrays hi hf ev⟩
  intro i hi
  rcases next_disk w ev with ⟨-, -, h3, -⟩ | ⟨j, rfl, hj, -, -, h3, -⟩ | ⟨j, rfl, -, -, h1⟩ | ⟨j, rfl, -, -, h1⟩ | ⟨j, rfl, -, -, -, -, h3⟩ |
    ⟨j, rfl, -, -, -, -, h3⟩
  · rw [h3] at hi; exact keep i hi
  · rw [h3] at hi
    rcases List.mem_cons.1 hi with rfl | hi
    · cases ho : w.objs[i]? with
      | none =>
        have hn : next w (.begin i) = w := by unfold next; simp [hj, ho]
        rw [hn] at h3
        have := congrArg List.length h3
        simp at this
      | some o =>
        obtain ⟨env2, s⟩ := o
        have hlt : i < w.objs.length := (List.getElem?_eq_some_iff.1 ho).1
        cases hld : loadForSave (seenBy (view w) s) with | mk res s1 => _
        cases res with
        | error e =>
          have hn : next w (.begin i) = { w with objs := w.objs.set i (env2, s1) } := by unfold next; simp [hj, ho, hld]
          rw [hn] at h3
          have := congrArg List.length h3
          simp at this
        | ok u =>
          rw [next_begin_ok hj ho hld]
          refine ⟨saveGroup s1, ?_⟩
          unfold arraysOf
          dsimp only
          rw [List.getElem?_set_self hlt]
          rfl
    · exact keep i hi
  · apply keep
    rw [h1] at hi
    unfold doMove at hi
    split at hi
    · exact hi
    · exact List.mem_of_mem_filter hi
  · apply keep
    rw [h1] at hi
    unfold doMake at hi
    split at hi <;> exact hi
  · rw [h3] at hi; exact keep i (List.mem_of_mem_filter hi)
  · rw [h3] at hi; exact keep i (List.mem_of_mem_filter hi)

theorem next_alone {w : Sys} (h : Alone w) (ha : HasArrays w) {ev : Ev} (hb : (∃ i, ev = .begin i) → w.busy = []) : Alone (next w ev) := by
  rcases next_disk w ev with ⟨h1, -, h3, h4⟩ | ⟨j, rfl, hj, h1, -, h3, h4⟩ | ⟨j, rfl, hj, hp, h1⟩ | ⟨j, rfl, hj, hp, h1⟩ |
    ⟨j, rfl, hj, -, -, -, h3⟩ | ⟨j, rfl, hj, -, -, -, h3⟩
  · unfold Alone
    rw [h1, h3, h4]
    refine ⟨h.1, h.2.1, fun j hj hp => ?_, h.2.2.2⟩
    obtain ⟨f, g1, g2⟩ := h.2.2.1 j hj hp
    exact ⟨f, g1, next_arrays (by rw [hj]; simp) g2 ev⟩
  · have hb := hb ⟨j, rfl⟩
    unfold Alone
    rw [h1, h3, hb]
    refine ⟨fun i hi hp => ?_, fun i hi hp => ?_, fun i hi hp => ?_, .inr ⟨j, rfl⟩⟩ <;> cases hi <;> rw [h4] at hp <;> cases hm : w.main <;>
      rw [hm] at hp <;> simp [check] at hp ⊢
  · have hbj := alone_busy h hj
    rw [h1]
    unfold doMove
    cases hm : w.main with
    | none => exact absurd hm (h.1 j hbj hp)
    | some x =>
      unfold Alone
      dsimp only
      rw [hbj]
      refine ⟨fun i hi hp => ?_, fun i hi hp => rfl, fun i hi hp => ?_, .inr ⟨j, rfl⟩⟩ <;> cases hi <;> simp at hp
  · have hbj := alone_busy h hj
    obtain ⟨f, hf⟩ := ha j hj
    have hf2 := next_arrays hj hf (.make j)
    rw [h1] at hf2 ⊢
    rw [doMake_some hf] at hf2 ⊢
    unfold Alone
    dsimp only
    rw [hbj]
    refine ⟨fun i hi hp => ?_, fun i hi hp => ?_, fun i hi hp => ?_, .inr ⟨j, rfl⟩⟩ <;> cases hi
    · simp at hp
    · simp at hp
    · refine ⟨f, rfl, ?_⟩
      rw [hbj] at hf2
      exact hf2
  · apply alone_none
    rw [h3, alone_busy h hj, filter_one]
  · apply alone_none
    rw [h3, alone_busy h hj, filter_one]

theorem run_snoc (w : Sys) (es : List Ev) (ev : Ev) : run w (es ++ [ev]) = next (run w es) ev := by simp [run]

theorem run_hasArrays (es : List Ev) : HasArrays (run nothing es) := by
  induction es using List.reverseRecOn with
  | nil => intro i hi; cases hi
  | append_singleton es ev ih => rw [run_snoc]; exact next_hasArrays ih ev

theorem run_alone {es : List Ev} (h1 : OneByOne es) : Alone (run nothing es) := by
  induction es using List.reverseRecOn with
  | nil => exact alone_none rfl
  | append_singleton es ev ih =>
    have ho : OneByOne es := by
      rintro a e b rfl he
      exact h1 a e (b ++ [ev]) (by simp) he
    rw [run_snoc]
    exact next_alone (ih ho) (run_hasArrays es) (h1 es ev [] rfl)

/-- C118: if saves are made one by one, the arrays of the last save that has ended are in the savefile or in its backup, at every later moment: at any
step of another save, after a save that could not create its file, and after a process has died in its save. -/
theorem overlap_kept_partial {es1 es2 : List Ev} {i : ℕ} (h1 : OneByOne (es1 ++ .finish i :: es2)) (hi : Writes (run nothing es1) i)
    (h2 : ∀ j, Ev.finish j ∉ es2) {f : HFile} (hf : arraysOf (run nothing es1) i = some f) :
    Holds (run nothing (es1 ++ .finish i :: es2)).main f ∨ Holds (run nothing (es1 ++ .finish i :: es2)).backup f := by
  have H : ∀ es2 : List Ev, OneByOne (es1 ++ .finish i :: es2) → (∀ j, Ev.finish j ∉ es2) →
      (run nothing (es1 ++ .finish i :: es2)).main = some (.complete f) ∨
      ((run nothing (es1 ++ .finish i :: es2)).backup = some (.complete f) ∧
        ((run nothing (es1 ++ .finish i :: es2)).main = none ∨ ∃ j, (run nothing (es1 ++ .finish i :: es2)).busy = [j] ∧
          (run nothing (es1 ++ .finish i :: es2)).phase j = .opened)) := by
    intro es2
    induction es2 using List.reverseRecOn with
    | nil =>
      intro h1 _
      have ho : OneByOne es1 := by
        rintro a e b rfl he
        exact h1 a e (b ++ [.finish i]) (by simp) he
      left
      obtain ⟨g, hm, hg⟩ := (run_alone ho).2.2.1 i (alone_busy (run_alone ho) hi.1) hi.2
      rw [hf] at hg
      cases hg
      rw [run_snoc]
      unfold next
      dsimp only
      rw [if_pos (show i ∈ (run nothing es1).busy ∧ (run nothing es1).phase i = .opened from hi), hm]
      simp [closed]
    | append_singleton es2 ev ih =>
      intro h1 h2
      have ho : OneByOne (es1 ++ .finish i :: es2) := by
        rintro a e b hab he
        refine h1 a e (b ++ [ev]) ?_ he
        calc es1 ++ .finish i :: (es2 ++ [ev]) = (es1 ++ .finish i :: es2) ++ [ev] := by simp
          _ = a ++ e :: (b ++ [ev]) := by rw [hab]; simp
      have hl : es1 ++ .finish i :: (es2 ++ [ev]) = (es1 ++ .finish i :: es2) ++ [ev] := by simp
      have hb : (∃ j, ev = .begin j) → (run nothing (es1 ++ .finish i :: es2)).busy = [] := h1 _ ev [] hl
      have ih := ih ho (fun j hj => h2 j (by simp [hj]))
      have hal := run_alone ho
      have har := run_hasArrays (es1 ++ .finish i :: es2)
      rw [hl, run_snoc]
      generalize run nothing (es1 ++ .finish i :: es2) = w at *
      rcases next_disk w ev with ⟨g1, g2, g3, g4⟩ | ⟨j, rfl, hj, g1, g2, g3, g4⟩ | ⟨j, rfl, hj, hp, g1⟩ | ⟨j, rfl, hj, hp, g1⟩ |
        ⟨j, rfl, hj, hp, g1, g2, g3⟩ | ⟨j, rfl, hj, hp, g1, g2, g3⟩
      · rw [g1, g2, g3, g4]; exact ih
      · rw [g1, g2]
        rcases ih with ih | ⟨ih1, ih2 | ⟨l, ih2, -⟩⟩
        · exact .inl ih
        · exact .inr ⟨ih1, .inl ih2⟩
        · rw [hb ⟨j, rfl⟩] at ih2; cases ih2
      · have hbj := alone_busy hal hj
        rw [g1]
        unfold doMove
        rcases ih with ih | ⟨-, ih2 | ⟨l, ih2, ih3⟩⟩
        · rw [ih]; exact .inr ⟨rfl, .inl rfl⟩
        · exact absurd ih2 (hal.1 j hbj hp)
        · rw [hbj] at ih2; cases ih2; rw [hp] at ih3; cases ih3
      · have hbj := alone_busy hal hj
        obtain ⟨g, hg⟩ := har j hj
        have hm := hal.2.1 j hbj hp
        rw [g1, doMake_some hg]
        right
        rcases ih with ih | ⟨ih1, -⟩
        · rw [hm] at ih; cases ih
        · exact ⟨ih1, .inr ⟨j, hbj, by simp⟩⟩
      · have hm := hal.2.1 j (alone_busy hal hj) hp
        rw [g1, g2]
        rcases ih with ih | ⟨ih1, -⟩
        · exact .inl ih
        · exact .inr ⟨ih1, .inl hm⟩
      · exact absurd (by simp) (h2 j)
  rcases H es2 h1 h2 with h | h
  · exact .inl h
  · exact .inr h.1

/-! Saves that overlap. -/

/-- A save of object `i` can begin: it has all arrays, or can read them. -/
def CanSave (w : Sys) (i : ℕ) : Prop := i ∉ w.busy ∧ ∃ env s, w.objs[i]? = some (env, s) ∧ (loadForSave (seenBy (view w) s)).1 = .ok ()

theorem next_begin {w : Sys} {i : ℕ} (h : CanSave w i) :
    ∃ o f, next w (.begin i) = ⟨w.objs.set i o, w.main, w.backup, i :: w.busy, Function.update w.phase i (check w.main)⟩ ∧
      arraysOf (next w (.begin i)) i = some f := by
  obtain ⟨hb, env, s, hi, hl⟩ := h
  cases hld : loadForSave (seenBy (view w) s) with | mk res s1 => _
  rw [hld] at hl
  have hl : res = .ok () := hl
  subst hl
  have hlt : i < w.objs.length := (List.getElem?_eq_some_iff.1 hi).1
  refine ⟨(env, s1), saveGroup s1, next_begin_ok hb hi hld, ?_⟩
  rw [next_begin_ok hb hi hld]
  unfold arraysOf
  dsimp only
  rw [List.getElem?_set_self hlt]
  rfl

/-- The steps of a save until its file is open; nothing is moved if there is nothing. -/
def toOpen (i : ℕ) : List Ev := [.begin i, .move i, .make i]

/-- What the backup is after the move. -/
def moved (main backup : Option Slot) : Option Slot :=
  match main with
  | some x => some x
  | none => backup

theorem run_toOpen {w : Sys} {i : ℕ} (h : CanSave w i) :
    ∃ f, arraysOf (run w (toOpen i)) i = some f ∧ (run w (toOpen i)).main = some (.writing i f) ∧
      (run w (toOpen i)).backup = moved w.main w.backup ∧ (run w (toOpen i)).busy = i :: w.busy ∧ (run w (toOpen i)).phase i = .opened ∧
      ∀ j, j ≠ i → (run w (toOpen i)).phase j = w.phase j := by
  obtain ⟨o, f, h1, h2⟩ := next_begin h
  have hb : i ∈ (next w (.begin i)).busy := by rw [h1]; simp
  have h3 := next_arrays hb h2 (.move i)
  change ∃ f, arraysOf (next (next (next w (.begin i)) (.move i)) (.make i)) i = some f ∧
    (next (next (next w (.begin i)) (.move i)) (.make i)).main = some (.writing i f) ∧
    (next (next (next w (.begin i)) (.move i)) (.make i)).backup = moved w.main w.backup ∧
    (next (next (next w (.begin i)) (.move i)) (.make i)).busy = i :: w.busy ∧
    (next (next (next w (.begin i)) (.move i)) (.make i)).phase i = .opened ∧
    ∀ j, j ≠ i → (next (next (next w (.begin i)) (.move i)) (.make i)).phase j = w.phase j
  have h5 : ∃ v, next (next w (.begin i)) (.move i) = v ∧ v.main = none ∧ v.backup = moved w.main w.backup ∧ v.busy = i :: w.busy ∧ v.phase i = .ready ∧
      ∀ j, j ≠ i → v.phase j = w.phase j := by
    refine ⟨_, rfl, ?_⟩
    rw [h1]
    cases hm : w.main with
    | none =>
      refine ⟨?_, ?_, ?_, ?_, fun j hj => ?_⟩ <;> simp [next, check, moved, hm, *]
    | some x =>
      refine ⟨?_, ?_, ?_, ?_, fun j hj => ?_⟩ <;> simp [next, check, moved, doMove, hm, *]
  obtain ⟨v, hv, v1, v2, v3, v4, v5⟩ := h5
  have h4 := next_arrays (by rw [hv, v3]; simp) h3 (.make i)
  rw [hv] at h3 h4 ⊢
  refine ⟨f, h4, ?_⟩
  have hmk : next v (.make i) = doMake v i := by
    unfold next
    simp [v3, v4]
  rw [hmk, doMake_some h3]
  exact ⟨rfl, v2, v3, by simp, fun j hj => by simp [hj, v5]⟩

theorem next_finish {v : Sys} {l : ℕ} (hl : l ∈ v.busy) (hp : v.phase l = .opened) :
    next v (.finish l) = ⟨v.objs, v.main.map (closed l), v.backup.map (closed l), v.busy.filter (· ≠ l), v.phase⟩ := by
  unfold next
  simp [hl, hp]

/-- An object that is saving keeps its arrays while another opens its file. -/
theorem toOpen_arrays {w : Sys} {i j : ℕ} {f : HFile} (hb : i ∈ w.busy) (hij : j ≠ i) (h : arraysOf w i = some f) :
    arraysOf (run w (toOpen j)) i = some f := by
  have hk : ∀ (v : Sys) (ev : Ev), (ev = .begin j ∨ ev = .move j ∨ ev = .make j) → i ∈ v.busy → i ∈ (next v ev).busy := by
    intro v ev hev hi
    rcases next_disk v ev with ⟨-, -, h3, -⟩ | ⟨l, -, -, -, -, h3, -⟩ | ⟨l, rfl, -, -, h1⟩ | ⟨l, rfl, -, -, h1⟩ | ⟨l, rfl, -⟩ | ⟨l, rfl, -⟩
    · rw [h3]; exact hi
    · rw [h3]; simp [hi]
    · rw [h1]
      have hlj : l = j := by rcases hev with h | h | h <;> cases h; rfl
      unfold doMove
      split
      · exact hi
      · simp [hi, hlj, hij.symm]
    · rw [h1]
      unfold doMake
      split <;> exact hi
    · rcases hev with h | h | h <;> cases h
    · rcases hev with h | h | h <;> cases h
  have h1 := hk w (.begin j) (.inl rfl) hb
  have h2 := hk _ (.move j) (.inr (.inl rfl)) h1
  exact next_arrays h2 (next_arrays h1 (next_arrays hb h _) _) (.make j)

/-- C118 is false when saves overlap. Object `j` opens its file while object `i` is writing its own: whatever files there were, none that can be read
is left, so that nothing is if both die. If both end, in whatever order, the savefile has the arrays of `j` and the backup those of `i`. -/
theorem overlap_loses {w : Sys} {i j : ℕ} (hi : CanSave w i) (hj : CanSave (run w (toOpen i)) j) :
    (∀ f, ¬ Holds (run w (toOpen i ++ toOpen j)).main f ∧ ¬ Holds (run w (toOpen i ++ toOpen j)).backup f) ∧
    ∃ f g, arraysOf (run w (toOpen i ++ toOpen j)) i = some f ∧ arraysOf (run w (toOpen i ++ toOpen j)) j = some g ∧
      ∀ es, es = [.finish i, .finish j] ∨ es = [.finish j, .finish i] →
        Holds (run w (toOpen i ++ toOpen j ++ es)).main g ∧ Holds (run w (toOpen i ++ toOpen j ++ es)).backup f := by
  obtain ⟨f, a1, a2, a3, a4, a5, a6⟩ := run_toOpen hi
  obtain ⟨g, b1, b2, b3, b4, b5, b6⟩ := run_toOpen hj
  have hij : j ≠ i := by
    rintro rfl
    apply hj.1
    rw [a4]
    simp
  rw [a2] at b3
  have hf := toOpen_arrays (j := j) (by rw [a4]; simp) hij a1
  have h2 : run w (toOpen i ++ toOpen j) = run (run w (toOpen i)) (toOpen j) := by simp [run]
  have hr : ∀ es, run w (toOpen i ++ toOpen j ++ es) = run (run (run w (toOpen i)) (toOpen j)) es := fun es => by simp [run]
  have b7 := (b6 i hij.symm).trans a5
  rw [h2]
  refine ⟨fun x => ⟨?_, ?_⟩, f, g, hf, b1, ?_⟩
  · unfold Holds; rw [b2]; simp
  · unfold Holds; rw [b3]; simp [moved]
  · intro es hes
    rw [hr]
    rw [a4] at b4
    generalize run (run w (toOpen i)) (toOpen j) = u at *
    rcases hes with rfl | rfl
    · change Holds (next (next u (.finish i)) (.finish j)).main g ∧ Holds (next (next u (.finish i)) (.finish j)).backup f
      rw [next_finish (v := u) (l := i) (by rw [b4]; simp) b7]
      rw [next_finish (v := ⟨u.objs, _, _, u.busy.filter (· ≠ i), u.phase⟩) (l := j) (by dsimp only; rw [b4]; simp [hij]) b5]
      dsimp only
      rw [b2, b3]
      simp [Holds, moved, closed, hij]
    · change Holds (next (next u (.finish j)) (.finish i)).main g ∧ Holds (next (next u (.finish j)) (.finish i)).backup f
      rw [next_finish (v := u) (l := j) (by rw [b4]; simp) b5]
      rw [next_finish (v := ⟨u.objs, _, _, u.busy.filter (· ≠ j), u.phase⟩) (l := i) (by dsimp only; rw [b4]; simp [hij.symm]) b7]
      dsimp only
      rw [b2, b3]
      simp [Holds, moved, closed, hij, hij.symm]

/-- C118 is false when saves overlap. There is no file yet, and object `i` begins to save and finds none. Before it creates its file, object `j` saves
from beginning to end. The save of `j` has ended and can be read; then `i` creates its file in the same place, without a backup, and no file that can
be read is left, so that nothing is if `i` dies. -/
theorem overlap_overwrites {w : Sys} {i j : ℕ} (hm : w.main = none) (hb : w.backup = none) (hi : CanSave w i)
    (hj : CanSave (next w (.begin i)) j) :
    (∃ g, Holds (run w [.begin i, .begin j, .make j, .finish j]).main g ∧ arraysOf (run w [.begin i, .begin j, .make j]) j = some g) ∧
    ∀ f, ¬ Holds (run w [.begin i, .begin j, .make j, .finish j, .make i]).main f ∧
      ¬ Holds (run w [.begin i, .begin j, .make j, .finish j, .make i]).backup f := by
  obtain ⟨o, f, h1, h2⟩ := next_begin hi
  obtain ⟨o', g, h3, h4⟩ := next_begin hj
  have hij : j ≠ i := by
    rintro rfl
    apply hj.1
    rw [h1]
    simp
  change (∃ g, Holds (next (next (next (next w (.begin i)) (.begin j)) (.make j)) (.finish j)).main g ∧
      arraysOf (next (next (next w (.begin i)) (.begin j)) (.make j)) j = some g) ∧
    ∀ f, ¬ Holds (next (next (next (next (next w (.begin i)) (.begin j)) (.make j)) (.finish j)) (.make i)).main f ∧
      ¬ Holds (next (next (next (next (next w (.begin i)) (.begin j)) (.make j)) (.finish j)) (.make i)).backup f
  have hf := next_arrays (by rw [h1]; simp) h2 (.begin j)
  have e1 : (next (next w (.begin i)) (.begin j)).main = none := by rw [h3, h1]; exact hm
  have e2 : (next (next w (.begin i)) (.begin j)).backup = none := by rw [h3, h1]; exact hb
  have e3 : (next (next w (.begin i)) (.begin j)).busy = j :: i :: w.busy := by rw [h3, h1]
  have e4 : (next (next w (.begin i)) (.begin j)).phase j = .ready := by rw [h3, h1]; simp [check, hm]
  have e5 : (next (next w (.begin i)) (.begin j)).phase i = .ready := by rw [h3, h1]; simp [check, hm, hij.symm]
  generalize next (next w (.begin i)) (.begin j) = u at *
  have g1 : next u (.make j) = { u with main := some (.writing j g), phase := Function.update u.phase j .opened } := by
    rw [← doMake_some h4]
    unfold next
    simp [e3, e4]
  have g2 := next_arrays (by rw [e3]; simp) h4 (.make j)
  have g3 := next_arrays (by rw [e3]; simp) hf (.make j)
  rw [g1] at g2 g3 ⊢
  rw [next_finish (l := j) (by dsimp only; rw [e3]; simp) (by simp)]
  refine ⟨⟨g, by simp [Holds, closed], g2⟩, fun x => ?_⟩
  have g4 : ∀ v : Sys, v.objs = u.objs → i ∈ v.busy → v.phase i = .ready →
      next v (.make i) = { v with main := some (.writing i f), phase := Function.update v.phase i .opened } := by
    intro v ho hv hp
    rw [← doMake_some ((arraysOf_objs ho).trans hf)]
    unfold next
    simp [hv, hp]
  rw [g4 ⟨u.objs, _, _, u.busy.filter (· ≠ j), Function.update u.phase j .opened⟩ rfl (by dsimp only; rw [e3]; simp [hij.symm]) (by simp [hij.symm, e5])]
  simp [Holds, e2]

/-- C118 is false when saves overlap. Two objects have found that the savefile exists. When one of them has moved it, the save of the other is over,
with an error, and has written nothing. -/
theorem overlap_stops {w : Sys} {i j : ℕ} {x : Slot} (hm : w.main = some x) (hi : CanSave w i) (hj : CanSave (next w (.begin i)) j) :
    j ∈ (run w [.begin i, .begin j, .move i]).busy ∧ j ∉ (run w [.begin i, .begin j, .move i, .move j]).busy ∧
    (run w [.begin i, .begin j, .move i, .move j]).main = none ∧ (run w [.begin i, .begin j, .move i, .move j]).backup = some x := by
  obtain ⟨o, f, h1, h2⟩ := next_begin hi
  obtain ⟨o', g, h3, h4⟩ := next_begin hj
  have hij : j ≠ i := by
    rintro rfl
    apply hj.1
    rw [h1]
    simp
  change j ∈ (next (next (next w (.begin i)) (.begin j)) (.move i)).busy ∧
    j ∉ (next (next (next (next w (.begin i)) (.begin j)) (.move i)) (.move j)).busy ∧
    (next (next (next (next w (.begin i)) (.begin j)) (.move i)) (.move j)).main = none ∧
    (next (next (next (next w (.begin i)) (.begin j)) (.move i)) (.move j)).backup = some x
  have e1 : (next (next w (.begin i)) (.begin j)).main = some x := by rw [h3, h1]; exact hm
  have e3 : (next (next w (.begin i)) (.begin j)).busy = j :: i :: w.busy := by rw [h3, h1]
  have e4 : (next (next w (.begin i)) (.begin j)).phase j = .found := by rw [h3, h1]; simp [check, hm]
  have e5 : (next (next w (.begin i)) (.begin j)).phase i = .found := by rw [h3, h1]; simp [check, hm, hij.symm]
  generalize next (next w (.begin i)) (.begin j) = u at *
  have g1 : next u (.move i) = { u with main := none, backup := some x, phase := Function.update u.phase i .ready } := by
    unfold next doMove
    simp [e1, e3, e5]
  rw [g1]
  have g2 : ∀ v : Sys, v.main = none → j ∈ v.busy → v.phase j = .found → next v (.move j) = { v with busy := v.busy.filter (· ≠ j) } := by
    intro v h1 h2 h3
    unfold next doMove
    simp [h1, h2, h3]
  rw [g2 _ rfl (by dsimp only; rw [e3]; simp) (by simp [hij, e4])]
  refine ⟨by simp [e3], by simp, rfl, rfl⟩

/-! Worked cases: three objects of the same simulation. -/

/-- Two objects have computed a column density. -/
noncomputable def exStart : List Ev := [.create exTwo, .create exTwo, .ask 0 (.col_density "H" 1 false), .ask 1 (.col_density "H" 1 false)]

theorem exStart_run : run nothing exStart =
    ⟨[(exTwo, oneSt none ⟨"H", 1, none⟩ [1, 2]), (exTwo, oneSt none ⟨"H", 1, none⟩ [1, 2])], none, none, [], fun _ => .ready⟩ := by
  have hc : exTwo.compute "H" 1 0 false = .ok [1, 2] := by simp [exTwo]
  have h2 : run nothing [.create exTwo, .create exTwo] = ⟨[(exTwo, St.fresh none), (exTwo, St.fresh none)], none, none, [], fun _ => .ready⟩ := rfl
  change next (next (run nothing [.create exTwo, .create exTwo]) (.ask 0 _)) (.ask 1 _) = _
  rw [h2]
  have h3 : next ⟨[(exTwo, St.fresh none), (exTwo, St.fresh none)], none, none, [], fun _ => .ready⟩ (.ask 0 (.col_density "H" 1 false)) =
      ⟨[(exTwo, oneSt none ⟨"H", 1, none⟩ [1, 2]), (exTwo, St.fresh none)], none, none, [], fun _ => .ready⟩ := by
    change Sys.mk ([(exTwo, St.fresh none), (exTwo, St.fresh none)].set 0 (exTwo, (Query.run exTwo (.col_density "H" 1 false) (St.fresh none)).2)) _ _ _ _ = _
    rw [ask_fresh hc]
    rfl
  rw [h3]
  change Sys.mk ([(exTwo, oneSt none ⟨"H", 1, none⟩ [1, 2]), (exTwo, St.fresh none)].set 1
    (exTwo, (Query.run exTwo (.col_density "H" 1 false) (St.fresh none)).2)) _ _ _ _ = _
  rw [ask_fresh hc]
  rfl

theorem exOne_saveGroup (d d' : Option HFile) : saveGroup { oneSt d ⟨"H", 1, none⟩ [1, 2] with disk := d' } = oneFile ⟨"H", 1, none⟩ [1, 2] := by
  have h := oneSt_save (d := d) (d' := d') (k := ⟨"H", 1, none⟩) (a := [1, 2]) (by simp)
  unfold save_file at h
  rw [oneSt_loadForSave (by simp)] at h
  have h := congrArg (fun x => x.2.disk) h
  exact Option.some.inj h

theorem exCan {w : Sys} {i : ℕ} {d : Option HFile} (hb : i ∉ w.busy) (hi : w.objs[i]? = some (exTwo, oneSt d ⟨"H", 1, none⟩ [1, 2])) : CanSave w i :=
  ⟨hb, exTwo, _, hi, by
    change (loadForSave { oneSt d ⟨"H", 1, none⟩ [1, 2] with disk := _ }).1 = _
    rw [oneSt_loadForSave (by simp)]⟩

theorem exBegin {w : Sys} {i : ℕ} (hb : i ∉ w.busy) {d : Option HFile} (hi : w.objs[i]? = some (exTwo, oneSt d ⟨"H", 1, none⟩ [1, 2])) :
    next w (.begin i) = ⟨w.objs.set i (exTwo, { oneSt d ⟨"H", 1, none⟩ [1, 2] with disk := readable w.main }),
      w.main, w.backup, i :: w.busy, Function.update w.phase i (check w.main)⟩ :=
  next_begin_ok (u := ()) hb hi (oneSt_loadForSave (by simp))

theorem run_toOpen_objs (w : Sys) (i : ℕ) : (run w (toOpen i)).objs = (next w (.begin i)).objs := by
  change (next (next (next w (.begin i)) (.move i)) (.make i)).objs = _
  have h1 : ∀ v : Sys, (next v (.make i)).objs = v.objs := by
    intro v
    unfold next
    dsimp only
    split
    · exact doMake_objs v i
    · rfl
  have h2 : ∀ v : Sys, (next v (.move i)).objs = v.objs := by
    intro v
    unfold next
    dsimp only
    split
    · exact doMove_objs v i
    · rfl
  rw [h1, h2]

theorem exOpen {w : Sys} {i : ℕ} (hb : i ∉ w.busy) {d : Option HFile} (hi : w.objs[i]? = some (exTwo, oneSt d ⟨"H", 1, none⟩ [1, 2])) :
    ∃ p, run w (toOpen i) = ⟨w.objs.set i (exTwo, { oneSt d ⟨"H", 1, none⟩ [1, 2] with disk := readable w.main }),
      some (.writing i (oneFile ⟨"H", 1, none⟩ [1, 2])), moved w.main w.backup, i :: w.busy, p⟩ ∧ p i = .opened := by
  obtain ⟨f, a1, a2, a3, a4, a5, -⟩ := run_toOpen (exCan hb hi)
  have ho := run_toOpen_objs w i
  rw [exBegin hb hi] at ho
  have hlt : i < w.objs.length := (List.getElem?_eq_some_iff.1 hi).1
  have hf : f = oneFile ⟨"H", 1, none⟩ [1, 2] := by
    unfold arraysOf at a1
    rw [ho] at a1
    dsimp only at a1
    rw [List.getElem?_set_self hlt] at a1
    have a1 := Option.some.inj a1
    dsimp only at a1
    rw [exOne_saveGroup] at a1
    exact a1.symm
  subst hf
  refine ⟨(run w (toOpen i)).phase, ?_, a5⟩
  have e : ∀ u : Sys, u = ⟨u.objs, u.main, u.backup, u.busy, u.phase⟩ := fun u => rfl
  refine (e _).trans ?_
  rw [ho, a2, a3, a4]

/-- The first object has opened its file. -/
theorem exOpen0 : ∃ p, run nothing (exStart ++ toOpen 0) =
    ⟨[(exTwo, oneSt none ⟨"H", 1, none⟩ [1, 2]), (exTwo, oneSt none ⟨"H", 1, none⟩ [1, 2])],
      some (.writing 0 (oneFile ⟨"H", 1, none⟩ [1, 2])), none, [0], p⟩ ∧ p 0 = .opened := by
  have hr : run nothing (exStart ++ toOpen 0) = run (run nothing exStart) (toOpen 0) := by simp [run]
  obtain ⟨p, h1, h2⟩ := exOpen (w := run nothing exStart) (i := 0) (d := none) (by rw [exStart_run]; simp) (by rw [exStart_run]; rfl)
  refine ⟨p, ?_, h2⟩
  rw [hr, h1, exStart_run]
  rfl

/-- The first object has saved. -/
theorem exSaved : ∃ p, run nothing (exStart ++ toOpen 0 ++ [.finish 0]) =
    ⟨[(exTwo, oneSt none ⟨"H", 1, none⟩ [1, 2]), (exTwo, oneSt none ⟨"H", 1, none⟩ [1, 2])],
      some (.complete (oneFile ⟨"H", 1, none⟩ [1, 2])), none, [], p⟩ := by
  obtain ⟨p, h1, h2⟩ := exOpen0
  refine ⟨p, ?_⟩
  rw [run_snoc, h1, next_finish (by simp) h2]
  simp [closed]

/-- The first object has saved, then both save at once: the file of the first save is lost. -/
example : let w := run nothing (exStart ++ toOpen 0 ++ [.finish 0])
    Holds w.main (oneFile ⟨"H", 1, none⟩ [1, 2]) ∧ CanSave w 1 ∧ CanSave (run w (toOpen 1)) 0 ∧
    ∀ f, ¬ Holds (run w (toOpen 1 ++ toOpen 0)).main f ∧ ¬ Holds (run w (toOpen 1 ++ toOpen 0)).backup f := by
  obtain ⟨p, hw⟩ := exSaved
  rw [hw]
  intro w
  have h1 : CanSave w 1 := exCan (d := none) (by simp [w]) rfl
  obtain ⟨p2, h3, -⟩ := exOpen (w := w) (i := 1) (d := none) (by simp [w]) rfl
  have h2 : CanSave (run w (toOpen 1)) 0 := by
    rw [h3]
    exact exCan (d := none) (by simp [w]) rfl
  exact ⟨rfl, h1, h2, (overlap_loses h1 h2).1⟩

/-- Two objects save for the first time: what the second has saved is overwritten. -/
example : (run nothing exStart).main = none ∧ (run nothing exStart).backup = none ∧ CanSave (run nothing exStart) 0 ∧
    CanSave (next (run nothing exStart) (.begin 0)) 1 := by
  rw [exStart_run]
  refine ⟨rfl, rfl, exCan (d := none) (by simp) rfl, ?_⟩
  rw [exBegin (d := none) (by simp) rfl]
  exact exCan (d := none) (by simp) rfl

/-- The first object has saved, then both begin to save: one of the saves is over with an error. -/
example : let w := run nothing (exStart ++ toOpen 0 ++ [.finish 0])
    w.main = some (.complete (oneFile ⟨"H", 1, none⟩ [1, 2])) ∧ CanSave w 0 ∧ CanSave (next w (.begin 0)) 1 ∧
    (run w [.begin 0, .begin 1, .move 0, .move 1]).main = none := by
  obtain ⟨p, hw⟩ := exSaved
  rw [hw]
  intro w
  have h1 : CanSave w 0 := exCan (d := none) (by simp [w]) rfl
  have h2 : CanSave (next w (.begin 0)) 1 := by
    rw [exBegin (d := none) (by simp [w]) rfl]
    exact exCan (d := none) (by simp [w]) rfl
  exact ⟨rfl, h1, h2, (overlap_stops rfl h1 h2).2.2.1⟩

theorem exStart_same (es : List Ev) (h : ∀ ev ∈ es, ∀ env2, ev = .create env2 ∨ ev = .load env2 → env2 = exTwo.noSnapshot) :
    SameSim exTwo (exStart ++ es) := by
  intro ev hev env2 he
  rcases List.mem_append.1 hev with hev | hev
  · simp only [exStart, List.mem_cons, List.not_mem_nil, or_false] at hev
    rcases hev with rfl | rfl | rfl | rfl <;> rcases he with he | he <;> cases he <;> exact Env.le_refl _
  · rw [h ev hev env2 he]; exact noSnapshot_le _

/-- An object is made from the savefile while others save it; one of them dies. Whatever it answers is right. -/
example {i : ℕ} {a : Arr} (h : reply (run nothing (exStart ++ (toOpen 0 ++ [.finish 0, .load exTwo.noSnapshot, .begin 1, .begin 0, .move 1,
    .ask 2 (.col_density "H" 1 false), .make 1, .move 0]))) i (.col_density "H" 1 false) = some (.ok a)) : a = [1, 2] := by
  have := overlap_right exTwo_sizes (exStart_same _ (by simp [toOpen])) (q := .col_density "H" 1 false) trivial h
  rw [fresh_answer] at this
  change exTwo.compute "H" 1 0 false = _ at this
  simpa [exTwo] using this.symm

/-- The first object has saved; the second has moved the savefile and dies. -/
example : Holds (run nothing ((exStart ++ toOpen 0) ++ .finish 0 :: [.begin 1, .move 1])).main (oneFile ⟨"H", 1, none⟩ [1, 2]) ∨
    Holds (run nothing ((exStart ++ toOpen 0) ++ .finish 0 :: [.begin 1, .move 1])).backup (oneFile ⟨"H", 1, none⟩ [1, 2]) := by
  obtain ⟨p, h1, hp⟩ := exOpen0
  obtain ⟨p2, h2⟩ := exSaved
  refine overlap_kept_partial ?_ (by rw [h1]; exact ⟨by simp, hp⟩) (by simp) ?_
  · rintro es1 ev es2 h ⟨i, rfl⟩
    have hlen := congrArg List.length h
    simp [exStart, toOpen] at hlen
    have hget : ∀ n : ℕ, (([.create exTwo, .create exTwo, .ask 0 (.col_density "H" 1 false), .ask 1 (.col_density "H" 1 false), .begin 0, .move 0, .make 0,
      .finish 0, .begin 1, .move 1] : List Ev)[n]? = (es1 ++ .begin i :: es2)[n]?) := fun n => by rw [← h]; rfl
    have hev : (es1 ++ .begin i :: es2)[es1.length]? = some (.begin i) := by simp
    have htake : es1 = ([.create exTwo, .create exTwo, .ask 0 (.col_density "H" 1 false), .ask 1 (.col_density "H" 1 false), .begin 0, .move 0, .make 0,
      .finish 0, .begin 1, .move 1] : List Ev).take es1.length := by
      have : es1 = (es1 ++ .begin i :: es2).take es1.length := by simp
      rw [← h] at this
      exact this
    rw [← hget] at hev
    have hlt : es1.length < 10 := by omega
    generalize es1.length = n at *
    interval_cases n
    · subst htake; rfl
    · subst htake; rfl
    · subst htake; rfl
    · cases hev
    · subst htake
      change (run nothing exStart).busy = []
      rw [exStart_run]
    · cases hev
    · cases hev
    · cases hev
    · subst htake
      change (run nothing (exStart ++ toOpen 0 ++ [.finish 0])).busy = []
      rw [h2]
    · cases hev
  · rw [h1]
    unfold arraysOf
    change some (saveGroup { oneSt none ⟨"H", 1, none⟩ [1, 2] with disk := none }) = _
    rw [exOne_saveGroup]

/-- An object keeps what it has returned while the savefile is being written. -/
example : reply (run (next (run nothing exStart) (.ask 0 (.col_density "H" 1 false))) (toOpen 1)) 0 (.col_density "H" 1 false) = some (.ok [1, 2]) := by
  have h0 : reply (run nothing exStart) 0 (.col_density "H" 1 false) = some (.ok [1, 2]) := by
    rw [exStart_run]
    rfl
  refine overlap_stays _ (q := .col_density "H" 1 false) rfl h0 (by simp) (by simp [toOpen]) ?_
  have h1 : next (run nothing exStart) (.ask 0 (.col_density "H" 1 false)) = run nothing exStart := by
    rw [exStart_run]; rfl
  obtain ⟨p, h2, -⟩ := exOpen (w := run nothing exStart) (i := 1) (d := none) (by rw [exStart_run]; simp) (by rw [exStart_run]; rfl)
  rw [h1, h2, exStart_run]
  simp

end Verif.Props.Overlap
