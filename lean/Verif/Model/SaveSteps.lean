import Verif.Common

/-!
Model of the file system steps of saving: `save_file` of `Spectra` (spectra.py:266-331), `HaloSpectra`
(halospectra.py:71-99) and `EmissionSpectra` (emission.py:91-116), as lists of atomic steps, so that a
crash is a prefix of the list. `D` is the data of a complete file.
-/

namespace Verif.SaveSteps

/-- A file: absent, not completely written (unreadable or with data missing), or complete. -/
inductive FState (D : Type) where
  | absent
  | broken
  | complete (d : D)
  deriving DecidableEq, Repr

/-- The savefile and its `.backup`. -/
structure Disk (D : Type) where
  main : FState D
  backup : FState D
  deriving DecidableEq, Repr

/-- `path.exists(savefile)`. -/
def FState.present {D : Type} : FState D → Bool
  | .absent => false
  | _ => true

/-- `if path.exists(self.savefile): shutil.move(self.savefile, self.savefile+".backup")`, spectra.py:285-286
and emission.py:106-107. Within a directory this is `os.rename`: atomic, replacing an old backup. -/
def moveToBackup {D : Type} (d : Disk D) : Disk D :=
  if d.main.present then ⟨.absent, d.main⟩ else d

/-- `h5py.File(self.savefile, 'w')`, spectra.py:288. -/
def create {D : Type} (d : Disk D) : Disk D := { d with main := .broken }

/-- Creating a group or dataset in the open file, spectra.py:295-330. -/
def write {D : Type} (d : Disk D) : Disk D := { d with main := .broken }

/-- `f.close()`, spectra.py:331: the file is complete. -/
def close {D : Type} (new : D) (d : Disk D) : Disk D := { d with main := .complete new }

/-- The steps of `Spectra.save_file` and `EmissionSpectra.save_file` that touch the disk, with `n` writes.
The lazy loads before only read; creating the directory does not change the files. -/
def saveSteps {D : Type} (new : D) (n : ℕ) : List (Disk D → Disk D) :=
  [moveToBackup, create] ++ List.replicate n write ++ [close new]

/-- The disk when the process stops after `k` steps (`k` at least the number of steps: it finished). -/
def crash {D : Type} (steps : List (Disk D → Disk D)) (k : ℕ) (d : Disk D) : Disk D :=
  (steps.take k).foldl (fun d f => f d) d

/-- A savefile of halo spectra: the groups of the spectra and the group `halos`. -/
structure HaloFile (S H : Type) where
  spectra : Option S
  halos : Option H
  deriving DecidableEq, Repr

/-- `h5py.File(self.savefile,'a')`, halospectra.py:76, up to `f.close()`, halospectra.py:85: while open, the
old file itself is being changed. `f.create_group("halos")` raises `ValueError` if the group exists. -/
def appendHalos {S H : Type} (h : H) (d : Disk (HaloFile S H)) : Py (List (Disk (HaloFile S H) → Disk (HaloFile S H))) :=
  match d.main with
  | .absent => .ok [fun d => { d with main := .broken }, fun d => { d with main := .complete ⟨none, some h⟩ }]
  | .broken => .error .ioError
  | .complete f =>
    match f.halos with
    | some _ => .error .valueError
    | none => .ok [fun d => { d with main := .broken }, fun d => { d with main := .complete ⟨f.spectra, some h⟩ }]

/-- `HaloSpectra.save_file`, halospectra.py:71-86: append the halos to the savefile, then
`Spectra.save_file`, which moves that file away and writes a new one without the group. -/
def haloSteps {S H : Type} (s : S) (h : H) (n : ℕ) (d : Disk (HaloFile S H)) :
    Py (List (Disk (HaloFile S H) → Disk (HaloFile S H))) :=
  match appendHalos h d with
  | .error e => .error e
  | .ok l => .ok (l ++ saveSteps ⟨some s, none⟩ n)

/-- `HaloSpectra.load_savefile`, halospectra.py:88-99. -/
def haloLoad {S H : Type} (d : Disk (HaloFile S H)) : Py (S × H) :=
  match d.main with
  | .absent | .broken => .error .ioError
  | .complete f =>
    match f.halos with
    | none => .error .keyError
    | some h =>
      match f.spectra with
      | none => .error .keyError
      | some s => .ok (s, h)

/-- The sightline arguments that `HaloSpectra.__init__` hands to `Spectra.__init__`,
halospectra.py:23-48: `None` when the savefile was loaded, the new sightlines otherwise. Loading stores into
dictionaries that only `Spectra.__init__` creates; taken here with no array saved, the best case. -/
def haloSightlines {S H C : Type} (d : Disk (HaloFile S H)) (generate : Py C) : Py (Option C) :=
  match haloLoad d with
  | .ok _ => .ok none
  | .error .ioError | .error .keyError => generate.map some
  | .error e => .error e

/-- `HaloSpectra.__init__`, halospectra.py:19-52, up to the sightlines: `res` is passed where `Spectra`
expects `MPI`, so that anything but `None` is used as the MPI module (spectra.py:95-98), and
`reload_file=True` needs `cofm.astype` (spectra.py:172), which `None` does not have. -/
def haloInit {S H C : Type} (resGiven : Bool) (d : Disk (HaloFile S H)) (generate : Py C) : Py C :=
  match haloSightlines d generate with
  | .error e => .error e
  | .ok c =>
    if resGiven then .error .attributeError
    else
      match c with
      | none => .error .attributeError
      | some c => .ok c

end Verif.SaveSteps
