import Verif.Common

/-!
Model of the snapshot readers of fake_spectra/abstractsnapshot.py: the division of HDF5 files and
BigFile particles over MPI ranks and segments, and the cached file handle.
-/

namespace Verif
namespace Snapshot

/-- The MPI communicator seen by one process, `None` without MPI. -/
structure Comm where
  rank : ℕ
  size : ℕ

/-- What `os.path.exists`, `glob.glob` and `h5py.is_hdf5` answer on one process,
fake_spectra/abstractsnapshot.py:184-193. `snap true` is the result of globbing `snap_NNN*hdf5` in the
`snapdir_NNN` sub-directory, `snap false` in the base directory itself; likewise for the pattern
`snapshot_NNN*hdf5`. -/
structure Disk (F : Type) where
  snapdirExists : Bool
  snap : Bool → List F
  snapshot : Bool → List F
  isHdf5 : F → Bool

variable {F : Type} [LinearOrder F]

/-- `list.sort()` on file names. -/
def pySort (xs : List F) : List F := xs.mergeSort (· ≤ ·)

/-- The names found, sorted: fake_spectra/abstractsnapshot.py:174-194. With a communicator the
sub-directory is not looked for (`new_fname = base`, line 181). -/
def findFiles (d : Disk F) (comm : Option Comm) : Py (List F) :=
  let sub := comm.isNone && d.snapdirExists
  let fnames := d.snap sub
  let fnames := if fnames.length = 0 then d.snapshot sub else fnames
  if fnames.length = 0 then .error .ioError else .ok (pySort fnames)

/-- The names for one rank out of the sorted list, fake_spectra/abstractsnapshot.py:200-206. -/
def rankFiles (fnames : List F) (rank size : ℕ) : Py (List F) :=
  let num_files := fnames.length
  let files_per_rank := num_files / size
  let fnames_rank := (fnames.drop (rank * files_per_rank)).take
    ((rank + 1) * files_per_rank - rank * files_per_rank)
  let remained := num_files - files_per_rank * size
  if 1 ≤ rank ∧ rank < remained + 1 then
    match fnames[files_per_rank * size + rank - 1]? with
    | some f => .ok (fnames_rank ++ [f])
    | none => .error .indexError
  else .ok fnames_rank

/-- `_get_all_files`, fake_spectra/abstractsnapshot.py:167-207. -/
def get_all_files (d : Disk F) (comm : Option Comm) : Py (List F) := do
  let fnames ← findFiles d comm
  match comm with
  | none => .ok (fnames.filter d.isHdf5)
  | some c =>
    let fnames_rank ← rankFiles fnames c.rank c.size
    .ok (fnames_rank.filter d.isHdf5)

/-- State of an `HDF5Snapshot`: the file list, the file that is open (`none` once closed) and
`_handle_num`. -/
structure Hdf5 (F : Type) where
  files : List F
  handle : Option F
  handle_num : ℕ

/-- `HDF5Snapshot.__init__`, fake_spectra/abstractsnapshot.py:158-165. `canOpen` tells whether
`h5py.File` succeeds. -/
def Hdf5.init (d : Disk F) (canOpen : F → Bool) (comm : Option Comm) : Py (Hdf5 F) := do
  let files ← get_all_files d comm
  let files := (pySort files).reverse
  match files[0]? with
  | none => .error .indexError
  | some f => if canOpen f then .ok ⟨files, some f, 0⟩ else .error .ioError

/-- `get_n_segments` of an HDF5 snapshot, fake_spectra/abstractsnapshot.py:236-241. -/
def Hdf5.get_n_segments (s : Hdf5 F) (_part_type : Option ℕ) : Py ℕ := .ok s.files.length

/-- `fhandle["PartTypeN"][blockname]` for an open file: `read f` is the block or `none` if the file has
no such block (`KeyError`). A closed handle raises `ValueError`. -/
def readHandle {F D : Type} (read : F → Option D) : Option F → Py D
  | none => .error .valueError
  | some f => match read f with
    | some x => .ok x
    | none => .error .keyError

/-- The switch of the cached handle, fake_spectra/abstractsnapshot.py:220-223 and 248-251: the new state
and, if the switch failed, the exception. The old file is closed before the new one is opened, and
`_handle_num` is written last. -/
def Hdf5.select {F : Type} (canOpen : F → Bool) (s : Hdf5 F) (segment : ℕ) : Hdf5 F × Option PyErr :=
  if s.handle_num ≠ segment then
    match s.files[segment]? with
    | none => ({ s with handle := none }, some .indexError)
    | some f =>
      if canOpen f then ({ s with handle := some f, handle_num := segment }, none)
      else ({ s with handle := none }, some .ioError)
  else (s, none)

/-- `get_data` for a segment number that is not negative, fake_spectra/abstractsnapshot.py:220-224. The
block name (after the translation of lines 212-213) is part of `read`. `canOpen` is what `h5py.File`
does at the time of the call. -/
def Hdf5.get_data {F D : Type} (canOpen : F → Bool) (read : F → Option D) (s : Hdf5 F) (segment : ℕ) :
    Hdf5 F × Py D :=
  match s.select canOpen segment with
  | (s, some e) => (s, .error e)
  | (s, none) => (s, readHandle read s.handle)

/-- `get_data` with a negative segment: every file of the list, concatenated,
fake_spectra/abstractsnapshot.py:214-219. -/
def Hdf5.get_data_all {F D : Type} (canOpen : F → Bool) (read : F → Option (List D)) (s : Hdf5 F) :
    Py (List D) := do
  let blocks ← s.files.mapM (fun f =>
    if canOpen f then readHandle read (some f) else (.error .ioError : Py (List D)))
  if blocks.isEmpty then .error .valueError else .ok blocks.flatten

/-! ### BigFile

The number of particles of a type is the header attribute `TotNumPart` (`AbstractSnapshot.get_npart`, fake_spectra/abstractsnapshot.py:85-87).
The other methods of that class which both readers replace (fake_spectra/abstractsnapshot.py:58-83) are never reached: `get_kernel`
there returns 1, the rest raise NotImplementedError. -/

/-- `self.parts_rank`, fake_spectra/abstractsnapshot.py:341-345. -/
def parts_rank (npart size : ℕ) : List ℕ :=
  (List.range size).map (fun r => npart / size + if r < npart % size then 1 else 0)

/-- `chunk_size`, fake_spectra/abstractsnapshot.py:337. -/
def chunk_size : ℕ := 256 ^ 3

/-- `parts_rank[rank]`. -/
def partsOf (npart size rank : ℕ) : ℕ := (parts_rank npart size).getD rank 0

/-- `get_n_segments` of a BigFile snapshot, fake_spectra/abstractsnapshot.py:337-346. `part_type` has no
default value: leaving it out is a `TypeError`. `npart` is the number of particles of each type. -/
def big_n_segments (npart : ℕ → ℕ) (size rank chunk : ℕ) (part_type : Option ℕ) : Py ℕ :=
  match part_type with
  | none => .error .typeError
  | some t => .ok (max 1 (partsOf (npart t) size rank / chunk))

/-- `_segment_to_partlist` for a segment number that is not negative,
fake_spectra/abstractsnapshot.py:362-375. -/
def segment_to_partlist (npart : ℕ → ℕ) (size rank chunk part_type segment : ℕ) : Py (ℕ × ℕ) := do
  let n_segments ← big_n_segments npart size rank chunk (some part_type)
  let one_segment := partsOf (npart part_type) size rank / n_segments
  let first_part_rank := if rank = 0 then 0 else ((parts_rank (npart part_type) size).take rank).sum
  .ok (first_part_rank + one_segment * segment, first_part_rank + one_segment * (segment + 1))

/-- `get_data` of a BigFile snapshot: the elements `start .. end` of the block,
fake_spectra/abstractsnapshot.py:324-335. -/
def big_get_data {D : Type} (block : List D) (npart : ℕ → ℕ) (size rank chunk part_type segment : ℕ) :
    Py (List D) := do
  let se ← segment_to_partlist npart size rank chunk part_type segment
  .ok ((block.drop se.1).take (se.2 - se.1))

/-- `get_blocklen` of a BigFile snapshot, fake_spectra/abstractsnapshot.py:348-360. -/
def big_get_blocklen (npart : ℕ → ℕ) (size rank chunk part_type segment : ℕ) : Py ℕ := do
  let se ← segment_to_partlist npart size rank chunk part_type segment
  .ok (se.2 - se.1)

/-! ### Block names -/

/-- `hdf_to_bigfile_map`, fake_spectra/abstractsnapshot.py:33-37. -/
def hdf_to_bigfile_map : List (String × String) :=
  [("Coordinates", "Position"), ("Velocities", "Velocity"), ("Masses", "Mass"),
   ("NeutralHydrogenAbundance", "NeutralHydrogenFraction"), ("GFM_Metallicity", "Metallicity")]

/-- `bigfile_to_hdf_map`, fake_spectra/abstractsnapshot.py:39. -/
def bigfile_to_hdf_map : List (String × String) := hdf_to_bigfile_map.map (fun p => (p.2, p.1))

/-- `if blockname in m.keys(): blockname = m[blockname]`,
fake_spectra/abstractsnapshot.py:212-213, 328-329. -/
def translate (m : List (String × String)) (name : String) : String := (m.lookup name).getD name

end Snapshot
end Verif
