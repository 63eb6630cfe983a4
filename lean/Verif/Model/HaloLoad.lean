import Verif.Model.Catalogue
import Verif.Model.HaloAssigned

/-!
Model of the loading of a halo catalogue by the class which assigns absorbers to halos (haloassigned_spectra.py:23-26 and 88-107) and
of the virial velocities it gives for halos and subhalos (haloassigned_spectra.py:49-73), with files and arrays which cannot be read.
-/

namespace Verif.HaloLoad
open Verif.Np Verif.Catalogue

/-- What reading an array of a file gives: there is none, it is there but damaged, or its rows. A row is a list of numbers, of length
one for arrays with one dimension. -/
inductive Stored where
  | missing
  | damaged
  | data (a : Arr (List ℝ))

/-- A file of the catalogue: the numbers in its header and its arrays. -/
structure File where
  header : Dset → ℕ
  arrays : Dset → String → Stored

/-- The directory of the catalogue: what is found at a name, `none` for a file which cannot be opened. -/
abbrev Disk := Name → Option File

/-- The constructor of `SubFindHDF5`, subfindhdf.py:12-31, from the names matching the pattern. A header without the three numbers, or
a file without one of the two groups, is not modelled. -/
def openCat (disk : Disk) (found : List Name) : Py (Cat (List ℝ)) :=
  match found.mergeSort (· ≤ ·) with
  | [] => .error .indexError
  | f :: fs =>
    match disk f with
    | none => .error .ioError
    | some h => .ok ⟨f :: fs, h.header, fun _ _ => none⟩

/-- `_get_single_file_array`, subfindhdf.py:41-55: only a KeyError is caught. -/
def singleArr (disk : Disk) (fname : Name) (dset : Dset) (name : String) (shapes : Option (List ℕ)) : Py (Arr (List ℝ)) :=
  match disk fname with
  | none => .error .ioError
  | some f =>
    match f.arrays dset name with
    | .data a => .ok a
    | .damaged => .error .ioError
    | .missing =>
      match shapes with
      | none => .error .typeError
      | some tail => .ok ⟨tail, []⟩

/-- Reading an array from all files, subfindhdf.py:62-66. -/
def readAll (disk : Disk) (foffiles : List Name) (size : ℕ) (dset : Dset) (name : String) : Py (Arr (List ℝ)) := do
  let f ← get foffiles 0
  let first ← singleArr disk f dset name none
  let all ← foffiles.mapM (fun f => singleArr disk f dset name (some first.tail))
  let data ← concatenate all
  if data.rows.length = size then pure data else .error .assertionError

/-- `get_grp(name)` and `get_sub(name)`, subfindhdf.py:70-76, for a name which is not in the cache. The nine names asked for by
`load_halo` are different, so the cache never answers. -/
def getArr (disk : Disk) (c : Cat (List ℝ)) (dset : Dset) (name : String) : Py (List (List ℝ)) :=
  (readAll disk c.foffiles (c.sizes dset) dset name).map Arr.rows

/-- The attributes set by `load_halo`; `none` is an attribute which the object does not have. -/
structure Halos where
  sub_cofm : Option (List (List ℝ))
  sub_mass : Option (List (List ℝ))
  sub_radii : Option (List (List ℝ))
  sub_vel : Option (List (List ℝ))
  sub_sub_radii : Option (List (List ℝ))
  sub_sub_cofm : Option (List (List ℝ))
  sub_sub_mass : Option (List (List ℝ))
  sub_sub_index : Option (List (List ℝ))
  sub_sub_vel : Option (List (List ℝ))

/-- The object before `load_halo`. -/
def Halos.empty : Halos := ⟨none, none, none, none, none, none, none, none, none⟩

/-- `SolarMass_in_g`, haloassigned_spectra.py:91. -/
noncomputable def SolarMass_in_g : ℝ := 1.989e33

/-- The masses of groups, haloassigned_spectra.py:97. -/
noncomputable def inSolar (u : Units.UnitSystem) (a : List (List ℝ)) : List (List ℝ) :=
  a.map (fun row => row.map (fun m => m * u.UnitMass_in_g / SolarMass_in_g))

/-- One assignment of `load_halo`: the array asked for and the attribute set. -/
structure Step where
  dset : Dset
  name : String
  set : List (List ℝ) → Halos → Halos

/-- The assignments of `load_halo` in their order, haloassigned_spectra.py:95-105. -/
noncomputable def steps (u : Units.UnitSystem) : List Step :=
  [⟨.group, "GroupPos", fun a h => { h with sub_cofm := some a }⟩,
   ⟨.group, "Group_M_Crit200", fun a h => { h with sub_mass := some (inSolar u a) }⟩,
   ⟨.group, "Group_R_Crit200", fun a h => { h with sub_radii := some a }⟩,
   ⟨.group, "GroupVel", fun a h => { h with sub_vel := some a }⟩,
   ⟨.subhalo, "SubhaloHalfmassRad", fun a h => { h with sub_sub_radii := some a }⟩,
   ⟨.subhalo, "SubhaloPos", fun a h => { h with sub_sub_cofm := some a }⟩,
   ⟨.subhalo, "SubhaloMass", fun a h => { h with sub_sub_mass := some a }⟩,
   ⟨.subhalo, "SubhaloGrNr", fun a h => { h with sub_sub_index := some a }⟩,
   ⟨.subhalo, "SubhaloVel", fun a h => { h with sub_sub_vel := some a }⟩]

/-- The body of the `try`, after the catalogue is open: it stops at the first error, and what was set stays set. -/
def runSteps (disk : Disk) (c : Cat (List ℝ)) : List Step → Halos → Py Unit × Halos
  | [], h => (.ok (), h)
  | s :: ss, h =>
    match getArr disk c s.dset s.name with
    | .error e => (.error e, h)
    | .ok a => runSteps disk c ss (s.set a h)

/-- `except IOError: pass`, haloassigned_spectra.py:106-107. -/
def exceptIO (r : Py Unit × Halos) : Py Unit × Halos :=
  match r.1 with
  | .error .ioError => (.ok (), r.2)
  | _ => r

/-- `load_halo`, haloassigned_spectra.py:88-107, called by the constructor (haloassigned_spectra.py:26) after everything else. -/
noncomputable def load_halo (u : Units.UnitSystem) (disk : Disk) (found : List Name) (h : Halos) : Py Unit × Halos :=
  match openCat disk found with
  | .error e => exceptIO (.error e, h)
  | .ok c => exceptIO (runSteps disk c (steps u) h)

/-- An attribute, or AttributeError. -/
def attr {α : Type} : Option α → Py α
  | some a => .ok a
  | none => .error .attributeError

/-- The selection of masses and radii of `virial_vel`, haloassigned_spectra.py:51-64; `none` is `halos=None`. -/
def select (halos : Option (List ℤ)) (a : Option (List (List ℝ))) : Py (List (List ℝ)) := do
  let a ← attr a
  match halos with
  | some is => is.mapM (get a)
  | none => pure a

/-- `virial_vel(halos, subhalo)`, haloassigned_spectra.py:49-73. Rows of masses and radii have one element. -/
noncomputable def virialVel (u : Units.UnitSystem) (hubble red : ℝ) (h : Halos) (halos : Option (List ℤ)) (subhalo : Bool) :
    Py (List ℝ) := do
  let mm ← select halos (if subhalo then h.sub_sub_mass else h.sub_mass)
  let rr ← select halos (if subhalo then h.sub_sub_radii else h.sub_radii)
  pure (List.zipWith (fun m r => HaloAssigned.virial_vel u hubble red m r) mm.flatten rr.flatten)

end Verif.HaloLoad
