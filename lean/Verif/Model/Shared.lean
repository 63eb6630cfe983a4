import Verif.Spec.Store

/-!
Model of several `Spectra` objects which use one savefile: `fake_spectra/spectra.py:85-331, 333-372, 434-499`. The objects may be in one
process or in several, and call one after the other in any order. Each keeps its own dictionaries; arrays that were not loaded are read from
the savefile when they are asked for, and `save_file` writes the savefile anew.

A call is not interrupted by a call of another object, so nobody reads a file that is partly written (SaveSteps has the steps of one save).
What an object computes is a parameter `Env`, as in Store.
-/

namespace Verif.Shared
open Verif.Store

/-- The objects, each with what it can compute, and the savefile. The field `disk` of an object is not used: what it sees is `seenBy`. -/
structure World where
  objs : List (Env × St)
  disk : Option HFile

/-- An object as it is when it calls: the savefile is the one there is now, spectra.py:364 and 285. -/
def seenBy (w : World) (s : St) : St := { s with disk := w.disk }

/-- What can happen. `create` is the constructor with `reload_file=True`, spectra.py:163-200; `load` with `reload_file=False`, spectra.py:201
and 434-499; `ask` a query of an object; `save` is `save_file`, spectra.py:266-331; `saveFails` is `save_file` when the new file cannot be
opened, spectra.py:287-290: the old one has been moved away by then (spectra.py:286). -/
inductive Event where
  | create (env : Env)
  | load (env : Env)
  | ask (i : ℕ) (q : Query)
  | save (i : ℕ)
  | saveFails (i : ℕ)

/-- What object `i` answers to a query, if there is such an object. -/
noncomputable def answer (w : World) (i : ℕ) (q : Query) : Option (Py Arr) :=
  match w.objs[i]? with
  | none => none
  | some (env, s) => some (q.answer env (seenBy w s))

/-- Whether `save_file` of object `i` succeeds. -/
noncomputable def saving (w : World) (i : ℕ) : Option (Py Unit) :=
  match w.objs[i]? with
  | none => none
  | some (_, s) => some (save_file (seenBy w s)).1

/-- One event. A constructor that raises gives no object. An object keeps what it loaded before `save_file` raised. -/
noncomputable def step (w : World) : Event → World
  | .create env => { w with objs := w.objs ++ [(env, St.fresh w.disk)] }
  | .load env =>
    match load_savefile w.disk with
    | .ok s => { w with objs := w.objs ++ [(env, s)] }
    | .error _ => w
  | .ask i q =>
    match w.objs[i]? with
    | none => w
    | some (env, s) => { w with objs := w.objs.set i (env, (q.run env (seenBy w s)).2) }
  | .save i =>
    match w.objs[i]? with
    | none => w
    | some (env, s) =>
      let s1 := (save_file (seenBy w s)).2
      { objs := w.objs.set i (env, s1), disk := s1.disk }
  | .saveFails i =>
    match w.objs[i]? with
    | none => w
    | some (env, s) =>
      match loadForSave (seenBy w s) with
      | (.error _, s1) => { w with objs := w.objs.set i (env, s1) }
      | (.ok _, s1) => { objs := w.objs.set i (env, s1), disk := none }

/-- A history. -/
noncomputable def play (w : World) (es : List Event) : World := es.foldl step w

/-- Nothing has been made yet. -/
def empty : World := ⟨[], none⟩

/-- Only the savefile is left, as when all programs have ended. -/
def reopened (w : World) : World := ⟨[], w.disk⟩

end Verif.Shared
