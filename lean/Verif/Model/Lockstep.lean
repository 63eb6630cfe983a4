import Verif.Model.SpeciesQuery

/-!
Model of several processes which run one program together: `Spectra` with an MPI communicator
(`fake_spectra/spectra.py:93-103, 272, 801-831, 862-892`). The only call in which processes wait for one another is the `Allreduce` at the end
of `compute_spectra` (spectra.py:830). A program is any sequence of calls of the API, the same on every process, where what is called next may
depend on the arrays returned.

Sums are exact. Not modelled: reading a savefile while process 0 is writing it, and an MPI implementation which ends all processes when one of
them fails.
-/

namespace Verif.Lockstep
open Verif.SpeciesQuery Verif.PartInt Verif.ComputeSpectra

/-- The keys of the dictionaries `tau` and `colden`: `get_tau(elem, ion, line)` and `get_col_density(elem, ion)`, spectra.py:862-892. -/
inductive Query where
  | tau (elem : String) (ion line : ℤ)
  | colden (elem : String) (ion : ℤ)
deriving DecidableEq

/-- An entry of `tau` or `colden`: an array, or a mark for an array that is in the savefile, spectra.py:359-372, 441-470. -/
inductive Entry where
  | here (a : List ℝ)
  | onDisk

/-- A process: its object, its part of the snapshot, the arrays it has, what it finds in the savefile, the random numbers it will draw, its
rank, and what comes of `save_file` when the process with rank 0 calls it. -/
structure Proc where
  obj : Obj
  segs : List Seg
  cache : Query → Option Entry
  file : Query → Option (List ℝ)
  random : ℕ → ℝ
  rank : ℕ
  saves : Py Unit

/-- What the calls of a program do to an object. `ask` is `get_tau` or `get_col_density`, with `force_recompute`; `draw` takes a number from the
random generator and `place` gives the object new sightlines, as `replace_not_DLA` does (spectra.py:713-758); `save` is `save_file`. -/
inductive Script where
  | done
  | ask (q : Query) (force : Bool) (k : List ℝ → Script)
  | draw (k : ℝ → Script)
  | place (ls : List Line) (k : Script)
  | save (k : Script)

/-- The part of a spectrum which a process computes itself, spectra.py:801-824; `get_col_density` asks for line 0, spectra.py:871. -/
noncomputable def own (p : Proc) (q : Query) : Outcome (List ℝ) :=
  match q with
  | .tau elem ion line =>
    if p.obj.kernel = 2 then compute_spectra_mesh p.obj elem ion line true p.segs
    else SpeciesQuery.compute_spectra p.obj elem ion line true p.segs
  | .colden elem ion =>
    if p.obj.kernel = 2 then compute_spectra_mesh p.obj elem ion 0 false p.segs
    else SpeciesQuery.compute_spectra p.obj elem ion 0 false p.segs

/-- How a process ends. -/
inductive End where
  | finished
  | raised (e : PyErr)
  | killed

/-- What a process does: it has ended, with the arrays it was given; or it works by itself; or it waits in `Allreduce`, with its array, until
it is given the sum. -/
inductive Prog where
  | ended (log : List (List ℝ)) (how : End)
  | work (p : Prog)
  | reduce (buf : List ℝ) (k : List ℝ → Prog)

/-- The object with an array for `q`. -/
def keep (p : Proc) (q : Query) (a : List ℝ) : Proc := { p with cache := fun q' => if q' = q then some (.here a) else p.cache q' }

/-- A process which runs a program. For `ask`: spectra.py:862-892 and `_really_load_array`, spectra.py:359-372. An exception which is not caught
ends the process. `save_file` does something on process 0 only, spectra.py:272; what it loads stays what it was. -/
noncomputable def play : Script → Proc → List (List ℝ) → Prog
  | .done, _, log => .ended log .finished
  | .ask q force k, p, log => .work (match (if force then none else p.cache q) with
    | some (.here a) => play (k a) p (log ++ [a])
    | some .onDisk => (match p.file q with
      | some a => play (k a) (keep p q a) (log ++ [a])
      | none => .ended log (.raised .ioError))
    | none => (match own p q with
      | .value a => .reduce a (fun s => play (k s) (keep p q s) (log ++ [s]))
      | .raised e => .ended log (.raised e)
      | .crashed _ => .ended log .killed))
  | .draw k, p, log => .work (play (k (p.random 0)) { p with random := fun i => p.random (i + 1) } log)
  | .place ls k, p, log => .work (play k { p with obj := { p.obj with sightlines := ls } } log)
  | .save k, p, log => .work (if p.rank = 0 then (match p.saves with
      | .ok _ => play k p log
      | .error e => .ended log (.raised e)) else play k p log)

/-- A process from its start: the constructor may fail. -/
noncomputable def start (s : Script) : Py Proc → Prog
  | .ok p => .work (play s p [])
  | .error e => .work (.ended [] (.raised e))

/-- The sum of arrays. -/
noncomputable def sumBufs : List (List ℝ) → List ℝ
  | [] => []
  | [a] => a
  | a :: b :: rest => addArr a (sumBufs (b :: rest))

/-- What can happen next: one process works on; or all processes are in `Allreduce`, with arrays of one length, and each is given the sum. -/
inductive Step : List Prog → List Prog → Prop where
  | work (l r : List Prog) (p : Prog) : Step (l ++ .work p :: r) (l ++ p :: r)
  | allreduce (n : ℕ) (bs : List (List ℝ × (List ℝ → Prog))) (hne : bs ≠ []) (hlen : ∀ b ∈ bs, b.1.length = n) :
      Step (bs.map (fun b => .reduce b.1 b.2)) (bs.map (fun b => b.2 (sumBufs (bs.map Prod.fst))))

end Verif.Lockstep
