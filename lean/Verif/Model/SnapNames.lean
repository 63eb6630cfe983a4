import Verif.Model.Snapshot
import Verif.Model.Readers
import Mathlib.Data.Nat.Digits.Defs
import Mathlib.Data.List.Lex

/-!
Model of how the files of a snapshot are found from its number (abstractsnapshot.py:167-207 and 305-323), and of what the header says
(abstractsnapshot.py:48-56 and 226-228). A file name is a list of character codes.
-/

namespace Verif.SnapNames
open Verif.Snapshot

/-- A file name, as character codes. -/
abbrev Name := List ℕ

/-- The codes of the characters of a string. -/
def codes (s : String) : Name := s.toList.map Char.toNat

/-- `str(num)` for a number which is not negative. -/
def decimal (num : ℕ) : Name := (if num = 0 then [0] else (Nat.digits 10 num).reverse).map (48 + ·)

/-- `str(num).rjust(3,'0')`, abstractsnapshot.py:175 and 315. -/
def snap (num : ℕ) : Name := List.replicate (3 - (decimal num).length) 48 ++ decimal num

/-- `glob.glob` for a pattern with one star in its last part: the names in the directory which begin with `pre`, end with `suf`, and
are no shorter than both together. -/
def glob (pre suf : Name) (dir : List Name) : List Name :=
  dir.filter (fun f => pre.isPrefixOf f && suf.isSuffixOf (f.drop pre.length))

/-- What is found on the disk for a snapshot number, abstractsnapshot.py:184-195: `sub` are the names in `snapdir_NNN`, `none` if there
is no such directory, `base` those in the simulation directory. -/
def diskOf (sub : Option (List Name)) (base : List Name) (isHdf5 : Name → Bool) (num : ℕ) : Disk Name where
  snapdirExists := sub.isSome
  snap := fun s => glob (codes "snap_" ++ snap num) (codes "hdf5") (if s then sub.getD [] else base)
  snapshot := fun s => glob (codes "snapshot_" ++ snap num) (codes "hdf5") (if s then sub.getD [] else base)
  isHdf5 := isHdf5

/-- `HDF5Snapshot._get_all_files(num, base)`, abstractsnapshot.py:167-207. -/
def allFiles (sub : Option (List Name)) (base : List Name) (isHdf5 : Name → Bool) (num : ℕ) (comm : Option Comm) : Py (List Name) :=
  get_all_files (diskOf sub base isHdf5 num) comm

/-- `BigFileSnapshot.__init__`, abstractsnapshot.py:305-323: the path which is opened. `PART_NNN` in `base` is used if it is there.
`entries` are the names in `base`, `openBig` gives the blocks of the file at `base` (`none`) or at an entry of it. -/
def openBigFile (entries : List Name) (openBig : Option Name → Except Readers.BigErr (List String)) (num : ℕ) :
    Except Readers.BigErr (Option Name) := do
  let new_fname := codes "PART_" ++ snap num
  let fname := if new_fname ∈ entries then some new_fname else none
  let blocks ← openBig fname
  if "Header" ∈ blocks then .ok fname else .error (.py .ioError)

/-! ### The header -/

/-- An attribute of the header as h5py and bigfile give it: a number, an array without dimensions, or an array with one dimension. -/
inductive Attr (α : Type) where
  | scalar (x : α)
  | zeroDim (x : α)
  | array (l : List α)

/-- `get_header_attr`, abstractsnapshot.py:48-56. -/
def get_header_attr {α : Type} : Attr α → Attr α
  | .scalar x => .scalar x
  | .zeroDim x => .zeroDim x
  | .array [x] => .scalar x
  | .array l => .array l

/-- The two kinds of rules for an array of 32 bit integers and a Python integer: NumPy 1 takes a wider type if the value of the Python
integer needs it, NumPy 2 raises. -/
inductive NumPy where
  | one
  | two

/-- `2**32*a` for an array of unsigned integers of 32 bits: the type is unsigned with 64 bits. -/
def timesTwo32 (v : NumPy) (a : List ℕ) : Py (List ℕ) :=
  match v with
  | .one => .ok (a.map (fun x => 2 ^ 32 * x % 2 ^ 64))
  | .two => .error .overflowError

/-- `HDF5Snapshot.get_npart`, abstractsnapshot.py:226-228, for the arrays of unsigned 32 bit integers which Gadget writes, with as many
entries as there are types of particles. -/
def get_npart (v : NumPy) (total highword : List ℕ) : Py (List ℕ) := do
  let high ← timesTwo32 v highword
  pure (List.zipWith (fun a b => (a + b) % 2 ^ 64) total high)

end Verif.SnapNames
