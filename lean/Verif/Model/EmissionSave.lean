import Verif.Model.Store

/-!
Model of saving and loading `EmissionSpectra`, emission.py:91-116: the dictionaries of `Spectra` (Model/Store) and that of the
stellar fluxes. The numbers in the keys of that dictionary are kept as the names `str` gives them.
-/

namespace Verif.EmissionSave
open Verif.Store

/-- The savefile: the groups of `Spectra` and the group `stellar`, emission.py:114-116. -/
structure EFile where
  main : HFile
  stellar : List (List String × Arr)

/-- An `EmissionSpectra` object and its savefile. `stellar` has the names and arrays of the dictionary of that name. The
savefile in `base` is that in `file` without the stellar fluxes. -/
structure ESt where
  base : St
  stellar : List (List String × Arr)
  file : Option (List (List String × Arr))

/-- `_load_all_multihash(self.stellar, "stellar")`, emission.py:97, which changes arrays of at most one number only. -/
def loadStellar (file : Option (List (List String × Arr))) (d : List (List String × Arr)) : Py (List (List String × Arr)) :=
  d.mapM (fun p =>
    if 1 < p.2.length then .ok p
    else match file with
      | none => .error .ioError
      | some f => match f.lookup p.1 with
        | none => .error .keyError
        | some a => .ok (p.1, a))

/-- `_really_load_array(k, self.colden, "velocity")`, spectra.py:359-372, as emission.py:102 calls it: an entry of the column
densities is filled with a velocity. -/
def loadCrossed (k : Key) (s : St) : Py Unit × St :=
  match (s.dicts .colden).lookup k with
  | none => (.error .keyError, s)
  | some r =>
    if 1 < (s.read r).length then (.ok (), s)
    else
      match s.disk with
      | none => (.error .ioError, s)
      | some f =>
        match (f .velocity).lookup (path k) with
        | none => (.error .keyError, s)
        | some a => (.ok (), s.store .colden k a)

/-- `_load_all_multihash(self.colden, "velocity")`, emission.py:102. -/
def loadAllCrossed (s : St) : Py Unit × St :=
  ((s.dicts .colden).map Prod.fst).foldl
    (fun acc k => match acc with
      | (.ok _, s1) => loadCrossed k s1
      | (.error e, s1) => (.error e, s1))
    (.ok (), s)

/-- The lazy loads of the dictionaries of `Spectra` before saving, emission.py:98-104. -/
def loadForSave (s : St) : Py Unit × St :=
  match loadAll .tau_obs s with
  | (.error e, s1) => (.error e, s1)
  | (.ok _, s1) =>
    match loadAll .tau s1 with
    | (.error e, s2) => (.error e, s2)
    | (.ok _, s2) =>
      match loadAll .colden s2 with
      | (.error e, s3) => (.error e, s3)
      | (.ok _, s3) =>
        match loadAllCrossed s3 with
        | (.error .ioError, s4) => (.ok (), s4)
        | (.error e, s4) => (.error e, s4)
        | (.ok _, s4) => (.ok (), s4)

/-- `EmissionSpectra.save_file`, emission.py:91-116, when nothing goes wrong on disk, and the state if it succeeds. -/
def save_file (s : ESt) : Py ESt :=
  match loadStellar s.file s.stellar with
  | .error e => .error e
  | .ok d =>
    match loadForSave s.base with
    | (.error e, _) => .error e
    | (.ok _, b) => .ok ⟨{ b with disk := some (saveGroup b) }, d, some d⟩

/-- The savefile of an object. -/
def ESt.saved (s : ESt) : Option EFile :=
  match s.base.disk, s.file with
  | some m, some d => some ⟨m, d⟩
  | _, _ => none

/-- A new object made from a savefile in a new process: `load_savefile` of `Spectra`, spectra.py:434-499. The group `stellar` is
not read, and the dictionary of the class is empty, emission.py:44. -/
def load_savefile (f : EFile) : Py ESt := do
  let b ← Store.load_savefile (some f.main)
  pure ⟨b, [], some f.stellar⟩

/-- The object after some queries. -/
noncomputable def ESt.after (env : Env) (s : ESt) (qs : List Query) : ESt := { s with base := Store.after env s.base qs }

end Verif.EmissionSave
