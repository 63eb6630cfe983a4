import Verif.Model.SnapNames

/-!
Model of where spectra are saved and looked for: the path of the savefile (`fake_spectra/spectra.py:156-162`,
`halospectra.py:20-22, 48`), Python's `os.path.join` and `os.path.dirname`, and the steps of `save_file` and `load_savefile` that
use the path (`spectra.py:266-292, 434-440`, `_really_load_array`, `spectra.py:359-372`).

A path is a list of character codes. Not modelled: `..`, links, permissions, and a directory with the name of the savefile or of
its backup.
-/

namespace Verif.SavePath
open Verif.SnapNames

/-- `os.path.join(a, b)`, posixpath. -/
def join (a b : Name) : Name :=
  if b.head? = some 47 then b
  else if a = [] ∨ a.getLast? = some 47 then a ++ b
  else a ++ 47 :: b

/-- A path up to and including its last slash. -/
def headOf (p : Name) : Name := (p.reverse.dropWhile (fun c => c != 47)).reverse

/-- `os.path.dirname(p)`, posixpath: slashes at the end are removed, unless there is nothing else. -/
def dirname (p : Name) : Name :=
  if (headOf p).all (fun c => c == 47) then headOf p else ((headOf p).reverse.dropWhile (fun c => c == 47)).reverse

/-- The parts between slashes. -/
def split : Name → List Name
  | [] => [[]]
  | c :: t =>
    if c = 47 then [] :: split t
    else match split t with
      | [] => [[c]]
      | h :: r => (c :: h) :: r

/-- The names on the way to a file, as the operating system reads a path. -/
def comps (p : Name) : List Name := (split p).filter (fun c => c != [] && c != [46])

/-- The place in the file system which a path means for a process in the directory `cwd`. -/
def resolve (cwd : List Name) (p : Name) : List Name := if p.head? = some 47 then comps p else cwd ++ comps p

/-- The directories and files. `D` is the contents of a file. -/
structure Disk (D : Type) where
  isDir : List Name → Bool
  file : List Name → Option D

variable {D : Type}

/-- `os.path.exists(p)`. -/
def Disk.exist (d : Disk D) (cwd : List Name) (p : Name) : Bool :=
  p != [] && (d.isDir (resolve cwd p) || (d.file (resolve cwd p)).isSome)

/-- `os.mkdir(p)`: one directory, whose parent must exist. -/
def Disk.mkdir (d : Disk D) (cwd : List Name) (p : Name) : Py (Disk D) :=
  if p = [] ∨ d.exist cwd p ∨ resolve cwd p = [] ∨ !d.isDir (resolve cwd p).dropLast then .error .ioError
  else .ok { d with isDir := fun q => if q = resolve cwd p then true else d.isDir q }

/-- `shutil.move(p, q)` for a file. -/
def Disk.move (d : Disk D) (cwd : List Name) (p q : Name) : Disk D :=
  { d with file := fun r => if r = resolve cwd p then none else if r = resolve cwd q then d.file (resolve cwd p) else d.file r }

/-- `h5py.File(p, 'w')`, and all that is written to it. -/
def Disk.write (d : Disk D) (cwd : List Name) (p : Name) (data : D) : Py (Disk D) :=
  if p = [] ∨ d.isDir (resolve cwd p) ∨ !d.isDir (resolve cwd p).dropLast then .error .ioError
  else .ok { d with file := fun q => if q = resolve cwd p then some data else d.file q }

/-- `h5py.File(p, 'r')`. -/
def Disk.read (d : Disk D) (cwd : List Name) (p : Name) : Py D :=
  match d.file (resolve cwd p) with
  | some x => .ok x
  | none => .error .ioError

/-- `base/snapdir_NNN`, spectra.py:158. -/
def snapdir (base : Name) (num : ℕ) : Name := join base (codes "snapdir_" ++ snap num)

/-- `base/SPECTRA_NNN`, spectra.py:161. -/
def specdir (base : Name) (num : ℕ) : Name := join base (codes "SPECTRA_" ++ snap num)

/-- The attribute `savefile`, spectra.py:156-162. -/
def savePath (d : Disk D) (cwd : List Name) (num : ℕ) (base : Name) (savedir : Option Name) (savefile : Name) : Name :=
  let savedir := match savedir with
    | some s => s
    | none => if d.exist cwd (snapdir base num) then snapdir base num else specdir base num
  join savedir savefile

/-- `save_file`, spectra.py:272-292, on one process, after the lazy loads. -/
def save (d : Disk D) (cwd : List Name) (savefile : Name) (data : D) : Py (Disk D) := do
  let d ← if !d.exist cwd (dirname savefile) then d.mkdir cwd (dirname savefile) else .ok d
  let d := if d.exist cwd savefile then d.move cwd savefile (savefile ++ codes ".backup") else d
  d.write cwd savefile data

/-- The directory of `HaloSpectra`, halospectra.py:20-21. -/
def haloDir (num : ℕ) (base : Name) (savedir : Option Name) : Name :=
  match savedir with
  | some s => s
  | none => snapdir base num

/-- The file that `HaloSpectra` looks for, halospectra.py:22-24. -/
def haloLooksFor (num : ℕ) (base : Name) (savedir : Option Name) (savefile : Name) : Name :=
  join (haloDir num base savedir) savefile

/-- The file that `HaloSpectra` saves to: the call of `Spectra.__init__`, halospectra.py:48, sets `savefile` again. -/
def haloSavesTo (d : Disk D) (cwd : List Name) (num : ℕ) (base : Name) (savedir : Option Name) (savefile : Name) : Name :=
  savePath d cwd num base (some (haloDir num base savedir)) (haloLooksFor num base savedir savefile)

end Verif.SavePath
