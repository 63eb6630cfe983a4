import Verif.Model.Shared

/-!
Model of saves which take time: `save_file`, `fake_spectra/spectra.py:266-331`, of several objects in several processes, each of which may
read the savefile or start to save while another is saving, or end at any point of its save.

A save is made of steps, and anything may happen between two of them: the loads and `path.exists` (spectra.py:274-285), the move to the backup
(spectra.py:286), the creation of the new file (spectra.py:288), `f.close()` (spectra.py:331). Simplifications: nobody else acts between the loads
and `path.exists`; a file which is open for writing, or was when its process ended, cannot be opened (HDF5 marks such files and locks them), which
is an `OSError` like that of a missing file. A file keeps its writer when it is renamed, as on POSIX systems. Creating a file where there is one
either truncates it or raises an error (HDF5 does the one or the other, as the file is locked or not): both may happen here.
-/

namespace Verif.Overlap
open Verif.Store Verif.Shared

/-- A file on disk: open for writing by object `i`, to hold `f` in the end; or closed. -/
inductive Slot where
  | writing (i : ℕ) (f : HFile)
  | complete (f : HFile)

/-- Where an object is in `save_file`: it has found that the savefile exists (spectra.py:285) and is to move it; it is to create the file
(spectra.py:288); it has created it. -/
inductive Phase where
  | found
  | ready
  | opened
  deriving DecidableEq

/-- The objects, the savefile, its `.backup` (spectra.py:286), the objects whose `save_file` has not returned, and where in it these are. -/
structure Sys where
  objs : List (Env × St)
  main : Option Slot
  backup : Option Slot
  busy : List ℕ
  phase : ℕ → Phase

/-- What `h5py.File(savefile, 'r')` gives, spectra.py:364 and 439. -/
def readable : Option Slot → Option HFile
  | some (.complete f) => some f
  | _ => none

/-- The objects with the file they can read. -/
def view (w : Sys) : World := ⟨w.objs, readable w.main⟩

/-- `f.close()` by object `i`, spectra.py:331, wherever its file is by now. -/
def closed (i : ℕ) : Slot → Slot
  | .writing j f => if j = i then .complete f else .writing j f
  | .complete f => .complete f

/-- What can happen: the constructors and queries of Shared; a save begins; it moves the file it has found; it creates its file; it cannot create its
file (spectra.py:289-290); it ends. A process that dies while it saves is one whose save does not go on. -/
inductive Ev where
  | create (env : Env)
  | load (env : Env)
  | ask (i : ℕ) (q : Query)
  | begin (i : ℕ)
  | move (i : ℕ)
  | make (i : ℕ)
  | fails (i : ℕ)
  | finish (i : ℕ)

/-- `path.exists(self.savefile)`, spectra.py:285, and what is next. A file that is being written exists too. -/
def check : Option Slot → Phase
  | some _ => .found
  | none => .ready

/-- `shutil.move(self.savefile, self.savefile+".backup")` by object `i`, spectra.py:286. If the file has gone meanwhile, that is a
`FileNotFoundError`, which ends the save. -/
def doMove (w : Sys) (i : ℕ) : Sys :=
  match w.main with
  | some x => { w with main := none, backup := some x, phase := Function.update w.phase i .ready }
  | none => { w with busy := w.busy.filter (· ≠ i) }

/-- `f = h5py.File(self.savefile, 'w')` by object `i`, spectra.py:288, and what it will write there, `_save_file`, spectra.py:293-330. -/
noncomputable def doMake (w : Sys) (i : ℕ) : Sys :=
  match w.objs[i]? with
  | some (_, s) => { w with main := some (.writing i (saveGroup s)), phase := Function.update w.phase i .opened }
  | none => w

/-- One event. An object that is saving does nothing else. -/
noncomputable def next (w : Sys) : Ev → Sys
  | .create env => { w with objs := (step (view w) (.create env)).objs }
  | .load env => { w with objs := (step (view w) (.load env)).objs }
  | .ask i q => if i ∈ w.busy then w else { w with objs := (step (view w) (.ask i q)).objs }
  | .begin i =>
    if i ∈ w.busy then w else
      match w.objs[i]? with
      | none => w
      | some (env, s) =>
        match loadForSave (seenBy (view w) s) with
        | (.error _, s1) => { w with objs := w.objs.set i (env, s1) }
        | (.ok _, s1) => ⟨w.objs.set i (env, s1), w.main, w.backup, i :: w.busy, Function.update w.phase i (check w.main)⟩
  | .move i => if i ∈ w.busy ∧ w.phase i = .found then doMove w i else w
  | .make i => if i ∈ w.busy ∧ w.phase i = .ready then doMake w i else w
  | .fails i => if i ∈ w.busy ∧ w.phase i = .ready then { w with busy := w.busy.filter (· ≠ i) } else w
  | .finish i =>
    if i ∈ w.busy ∧ w.phase i = .opened then ⟨w.objs, w.main.map (closed i), w.backup.map (closed i), w.busy.filter (· ≠ i), w.phase⟩ else w

/-- A history. -/
noncomputable def run (w : Sys) (es : List Ev) : Sys := es.foldl next w

/-- Nothing has been made yet. -/
def nothing : Sys := ⟨[], none, none, [], fun _ => .ready⟩

/-- What object `i` answers to a query, if it can be asked. -/
noncomputable def reply (w : Sys) (i : ℕ) (q : Query) : Option (Py Arr) := if i ∈ w.busy then none else answer (view w) i q

end Verif.Overlap
