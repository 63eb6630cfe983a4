import Verif.Common
import Std.Data.String.ToInt

/-!
Model of a `Spectra` object as a store of cached arrays: `fake_spectra/spectra.py`, the dictionaries
`self.tau`, `self.colden`, ... with lazily loaded entries, the queries that fill them, `save_file` and
`load_savefile`.

Arrays are heap cells, because Python hands out references to the cached arrays. The numerical work of a
query (`compute_spectra` and the numerators of the mass weighted quantities) is a parameter `Env`: it is a
function of the snapshot and the sightlines only (C03, C06).
-/

namespace Verif.Store

/-- A numpy array, flattened; `np.size` is the length. -/
abbrev Arr := List ℝ

/-- The dictionaries of a `Spectra` object, spectra.py:110-122, which are also the groups of the savefile,
spectra.py:309-330. -/
inductive Grp where
  | tau_obs | tau | colden | velocity | temperature | num_important | density_weight_density
  deriving DecidableEq, Repr

/-- A dictionary key: `(elem, ion)` or, for `tau`, `(elem, ion, line)`; `line` is the integer wavelength
used by `line_data`. -/
structure Key where
  elem : String
  ion : ℤ
  line : Option ℤ
  deriving DecidableEq, Repr

/-- A Python dictionary from keys to references into the heap (insertion order). -/
abbrev Dict := List (Key × ℕ)

/-- `d[k] = r`. -/
def dictSet (d : Dict) (k : Key) (r : ℕ) : Dict :=
  if d.any (fun p => p.1 = k) then d.map (fun p => if p.1 = k then (k, r) else p) else d ++ [(k, r)]

/-- The groups of an HDF5 savefile: datasets under paths of names. Group order is not modelled. -/
abbrev HFile := Grp → List (List String × Arr)

/-- The state: heap of arrays, dictionaries, and the savefile on disk (`none` when it does not exist). -/
structure St where
  heap : List Arr
  dicts : Grp → Dict
  disk : Option HFile

/-- The contents of a reference. -/
def St.read (s : St) (r : ℕ) : Arr := s.heap[r]?.getD []

/-- `array[key] = value` with a new array, as in spectra.py:367, 369, 490, 872, 891. -/
def St.store (s : St) (g : Grp) (k : Key) (a : Arr) : St :=
  { s with
    heap := s.heap ++ [a]
    dicts := fun g' => if g' = g then dictSet (s.dicts g) k s.heap.length else s.dicts g' }

/-- The names under which a key is filed: `str(key[ii])`, spectra.py:344-357 and 366-369. Element names
contain no slash. -/
def path (k : Key) : List String :=
  [k.elem, Int.repr k.ion] ++ k.line.toList.map Int.repr

/-- A new object from a snapshot, spectra.py:110-122: all dictionaries empty. -/
def St.fresh (disk : Option HFile) : St := ⟨[], fun _ => [], disk⟩

/-- `_really_load_array`, spectra.py:359-372. `np.size(key)` is 2 or 3, so the `ValueError` branch is not
reached. -/
def reallyLoad (g : Grp) (k : Key) (s : St) : Py Unit × St :=
  match (s.dicts g).lookup k with
  | none => (.error .keyError, s)
  | some r =>
    if 1 < (s.read r).length then (.ok (), s)
    else
      match s.disk with
      | none => (.error .ioError, s)
      | some f =>
        match (f g).lookup (path k) with
        | none => (.error .keyError, s)
        | some a => (.ok (), s.store g k a)

/-- What a query computes: functions of the snapshot and the sightlines. -/
structure Env where
  /-- `compute_spectra(elem, ion, ll, get_tau)`, spectra.py:801-831, modelled in ComputeSpectra. -/
  compute : String → ℤ → ℤ → Bool → Py Arr
  /-- `self.lines[(elem, ion)].keys()`. -/
  lines : String → ℤ → Py (List ℤ)
  /-- The choice of line per sightline, spectra.py:917-938. -/
  pick : List Arr → Arr
  /-- `self.dvbin/self.velfac*self.rscale`, spectra.py:878. -/
  phys : ℝ
  /-- The sum over segments of `_vel_single_file`, `_temp_single_file` or `_densweightdens`,
  spectra.py:964-972. -/
  weighted : Grp → String → ℤ → Py Arr
  /-- The division by the density, spectra.py:975-980. -/
  divide : Grp → Arr → Arr → Py Arr

/-- The pattern of all cached queries, for instance spectra.py:865-873: try the cache, on `KeyError`
(only) compute and store. Returns the reference to the cached array. -/
def cached (g : Grp) (k : Key) (force : Bool) (comp : St → Py Arr × St) (s : St) : Py ℕ × St :=
  let recompute (s : St) : Py ℕ × St :=
    match comp s with
    | (.ok a, s1) => (.ok s1.heap.length, s1.store g k a)
    | (.error e, s1) => (.error e, s1)
  if force then recompute s
  else
    match reallyLoad g k s with
    | (.ok _, s1) =>
      match (s1.dicts g).lookup k with
      | some r => (.ok r, s1)
      | none => recompute s1
    | (.error .keyError, s1) => recompute s1
    | (.error e, s1) => (.error e, s1)

/-- `get_col_density`, spectra.py:862-873. -/
def get_col_density (env : Env) (elem : String) (ion : ℤ) (force : Bool) : St → Py ℕ × St :=
  cached .colden ⟨elem, ion, none⟩ force (fun s => (env.compute elem ion 0 false, s))

/-- `get_tau`, spectra.py:881-893, with `number=-1`; a row is selected from the result afterwards. -/
def get_tau (env : Env) (elem : String) (ion line : ℤ) (force : Bool) : St → Py ℕ × St :=
  cached .tau ⟨elem, ion, some line⟩ force (fun s => (env.compute elem ion line true, s))

/-- The optical depths of all lines of an ion, spectra.py:907-914. -/
def observer (env : Env) (elem : String) (ion : ℤ) : Py Arr := do
  let ls ← env.lines elem ion
  let taus ← ls.mapM (fun l => env.compute elem ion l true)
  pure (env.pick taus)

/-- `get_observer_tau`, spectra.py:895-943. -/
def get_observer_tau (env : Env) (elem : String) (ion : ℤ) (force : Bool) : St → Py ℕ × St :=
  cached .tau_obs ⟨elem, ion, none⟩ force (fun s => (observer env elem ion, s))

/-- `get_density`, spectra.py:875-879: a new array. -/
noncomputable def get_density (env : Env) (elem : String) (ion : ℤ) (force : Bool) (s : St) : Py Arr × St :=
  match get_col_density env elem ion force s with
  | (.ok r, s1) => (.ok ((s1.read r).map (· / env.phys)), s1)
  | (.error e, s1) => (.error e, s1)

/-- `den[np.where(den == 0.)] = 1`, spectra.py:974. -/
noncomputable def noZero (den : Arr) : Arr := den.map (fun x => if x = 0 then 1 else x)

/-- `_get_mass_weight_quantity`, spectra.py:958-981. -/
noncomputable def massWeighted (env : Env) (g : Grp) (elem : String) (ion : ℤ) (s : St) : Py Arr × St :=
  match env.weighted g elem ion with
  | .error e => (.error e, s)
  | .ok num =>
    match get_density env elem ion false s with
    | (.error e, s1) => (.error e, s1)
    | (.ok den, s1) => (env.divide g num (noZero den), s1)

/-- `get_velocity`, spectra.py:983-992. -/
noncomputable def get_velocity (env : Env) (elem : String) (ion : ℤ) : St → Py ℕ × St :=
  cached .velocity ⟨elem, ion, none⟩ false (massWeighted env .velocity elem ion)

/-- `get_temp`, spectra.py:1004-1013. -/
noncomputable def get_temp (env : Env) (elem : String) (ion : ℤ) : St → Py ℕ × St :=
  cached .temperature ⟨elem, ion, none⟩ false (massWeighted env .temperature elem ion)

/-- `get_dens_weighted_density`, spectra.py:1026-1043. -/
noncomputable def get_dens_weighted_density (env : Env) (elem : String) (ion : ℤ) : St → Py ℕ × St :=
  cached .density_weight_density ⟨elem, ion, none⟩ false (massWeighted env .density_weight_density elem ion)

/-- `_load_all_multihash`, spectra.py:333-337: over the keys present at the start. -/
def loadAll (g : Grp) (s : St) : Py Unit × St :=
  ((s.dicts g).map Prod.fst).foldl
    (fun acc k => match acc with
      | (.ok _, s1) => reallyLoad g k s1
      | (.error e, s1) => (.error e, s1))
    (.ok (), s)

/-- `_save_multihash`, spectra.py:339-357, into an empty group: an existing dataset of that name is deleted
first. -/
def saveGroup (s : St) (g : Grp) : List (List String × Arr) :=
  (s.dicts g).foldl (fun acc p => acc.filter (fun q => q.1 ≠ path p.1) ++ [(path p.1, s.read p.2)]) []

/-- The lazy loads at the start of `save_file`, spectra.py:274-280: `temp`, `dens_weight_dens` are not
loaded, and an `IOError` for `velocity` is ignored. -/
def loadForSave (s : St) : Py Unit × St :=
  match loadAll .tau_obs s with
  | (.error e, s1) => (.error e, s1)
  | (.ok _, s1) =>
    match loadAll .tau s1 with
    | (.error e, s2) => (.error e, s2)
    | (.ok _, s2) =>
      match loadAll .colden s2 with
      | (.error e, s3) => (.error e, s3)
      | (.ok _, s3) =>
        match loadAll .velocity s3 with
        | (.error .ioError, s4) => (.ok (), s4)
        | (.error e, s4) => (.error e, s4)
        | (.ok _, s4) => (.ok (), s4)

/-- `save_file`, spectra.py:266-331, when nothing goes wrong on disk (see SaveSteps for crashes). -/
def save_file (s : St) : Py Unit × St :=
  match loadForSave s with
  | (.error e, s1) => (.error e, s1)
  | (.ok _, s1) => (.ok (), { s1 with disk := some (saveGroup s1) })

/-- `(elem, int(ion))` or `(elem, int(ion), int(float(line)))` from the names in the file,
spectra.py:452-491. -/
def unpath : List String → Option Key
  | [e, i] => i.toInt?.map (fun i => ⟨e, i, none⟩)
  | [e, i, l] => i.toInt?.bind (fun i => l.toInt?.map (fun l => ⟨e, i, some l⟩))
  | _ => none

/-- One dataset found by `load_savefile`: a placeholder `np.array([0])`, except for `num_important`, which
is read, spectra.py:488-491. A name that is not a number raises `ValueError`. -/
def loadEntry (g : Grp) (acc : Py St) (p : List String × Arr) : Py St :=
  match acc with
  | .error e => .error e
  | .ok s =>
    match unpath p.1 with
    | none => .error .valueError
    | some k => .ok (s.store g k (if g = .num_important then p.2 else [0]))

/-- The groups in the order of `load_savefile`, spectra.py:452-491. -/
def loadOrder : List Grp :=
  [.colden, .tau_obs, .tau, .velocity, .temperature, .density_weight_density, .num_important]

/-- `load_savefile`, spectra.py:434-499, on a new object. -/
def load_savefile (disk : Option HFile) : Py St :=
  match disk with
  | none => .error .ioError
  | some f => loadOrder.foldl (fun acc g => (f g).foldl (loadEntry g) acc) (.ok (St.fresh disk))

/-- The array queries of the API. -/
inductive Query where
  | col_density (elem : String) (ion : ℤ) (force : Bool)
  | tau (elem : String) (ion line : ℤ) (force : Bool)
  | observer_tau (elem : String) (ion : ℤ) (force : Bool)
  | velocity (elem : String) (ion : ℤ)
  | temp (elem : String) (ion : ℤ)
  | dens_weighted (elem : String) (ion : ℤ)
  deriving DecidableEq, Repr

/-- Run a query; the result is the reference returned to the caller. -/
noncomputable def Query.run (env : Env) : Query → St → Py ℕ × St
  | .col_density e i f => get_col_density env e i f
  | .tau e i l f => get_tau env e i l f
  | .observer_tau e i f => get_observer_tau env e i f
  | .velocity e i => get_velocity env e i
  | .temp e i => get_temp env e i
  | .dens_weighted e i => get_dens_weighted_density env e i

/-- The array the caller sees. -/
noncomputable def Query.answer (env : Env) (q : Query) (s : St) : Py Arr :=
  match q.run env s with
  | (.ok r, s1) => .ok (s1.read r)
  | (.error e, _) => .error e

/-- The state after a sequence of queries (an exception in one does not stop the session). -/
noncomputable def after (env : Env) (s : St) (qs : List Query) : St := qs.foldl (fun s q => (q.run env s).2) s

end Verif.Store
