import Verif.Model.CReader
import Verif.Model.PartInt

/-!
The program `extract` from its options to the file it leaves: the whole of `main`, cextract/main.cpp:93-262, with
`load_hdf5_header` (read_hdf_snapshot.c:52-104). The build is that of the Makefile (lines 7-24): HDF5, and no reader for
Gadget's own format (`NOGREAD`). Memory is taken to be enough. What the program prints is left out.
-/

namespace Verif.Extract

open CReader CTools PartInt

/-! ### Options -/

/-- What `getopt(argc, argv, "o:i:t:n:h")` finds, one after the other; `unknown` is `?`, also returned when an argument is
missing. -/
inductive Opt where
  | o (s : List Char)
  | i (s : List Char)
  | n (s : List Char)
  | t (s : List Char)
  | h
  | unknown

/-- White space before a number, as `isspace` has it. -/
def isBlank (c : Char) : Bool := c == ' ' || c == '\t' || c == '\n' || c == '\r' || c == '\x0b' || c == '\x0c'

/-- The number at the start of a string of digits; 0 if there is none. -/
def leading (a : ℕ) : List Char → ℕ
  | [] => a
  | c :: s => if 48 ≤ c.toNat ∧ c.toNat ≤ 57 then leading (10 * a + (c.toNat - 48)) s else a

/-- `atoi`. Simplification: numbers which do not fit an `int` are not cut off; `main` goes wrong for them all the same. -/
def atoi (s : List Char) : ℤ :=
  match s.dropWhile isBlank with
  | '-' :: r => -(leading 0 r : ℤ)
  | '+' :: r => leading 0 r
  | r => leading 0 r

/-- The variables set by the options, main.cpp:96-104. -/
structure Args where
  outname : List Char
  indir : List Char
  numLos : ℤ
  ext_table : Option (List Char)

/-- The values before the options are looked at, main.cpp:96-104. -/
def Args.init : Args := ⟨[], [], 0, none⟩

/-- The loop over the options, main.cpp:111-134. The variable compared with -1 is a `char`: where that type has no sign, the
end of the options is not recognised, and the `default` of the switch exits. -/
def options (signedChar : Bool) : List Opt → Args → CRes Args
  | [], a => if signedChar then .ok a else .error (.exit 1)
  | .o s :: r, a => options signedChar r { a with outname := s ++ datSuffix }
  | .i s :: r, a => options signedChar r { a with indir := s }
  | .n s :: r, a => options signedChar r { a with numLos := atoi s }
  | .t s :: r, a => options signedChar r { a with ext_table := some s }
  | .h :: _, _ => .error (.exit 1)
  | .unknown :: _, _ => .error (.exit 1)

/-! ### The snapshot -/

/-- The attributes of the header of a snapshot; `npart` is the number of gas particles in all files. -/
structure SnapHeader where
  atime : ℝ
  redshift : ℝ
  box100 : ℝ
  h100 : ℝ
  Omega0 : ℝ
  OmegaLambda : ℝ
  npart : ℤ

/-- What the program finds on the disk: which names are HDF5 files that can be read, the attributes in them (`none` if one
is missing), the particles in them, tables of sightlines (`none` if the file cannot be read), and which files can be
opened for writing. -/
structure Disk where
  isHdf : List Char → Bool
  header : List Char → Option SnapHeader
  file : List Char → HFile
  table : List Char → Option (List Scan)
  canWrite : List Char → Bool

/-- `load_hdf5_header`, read_hdf_snapshot.c:52-104: the value returned, and the variables it sets; `none` when it returns -1
before all of them are set. -/
def load_hdf5_header (disk : Disk) (fname : List Char) : Option (ℤ × SnapHeader) :=
  match disk.header fname with
  | none => none
  | some hd => some (if hd.npart ≤ 0 then -1 else 0, hd)

/-- `populate_los_table`, init.c:7-54; the outer `none` when the random numbers `drand` do not suffice. -/
noncomputable def populate (disk : Disk) (drand : List ℝ) (a : Args) (box : ℝ) : Option (CRes (List Los)) :=
  match a.ext_table with
  | some name => match disk.table name with
    | none => some (.error (.exit 3))
    | some rows => some (populateTable a.numLos.toNat rows box)
  | none => (populateRandom box a.numLos.toNat drand).map .ok

/-- A sightline as the index table takes it. Coordinates which are not numbers cannot be sorted: no defined result. -/
def lineOf (l : Los) : CRes Line :=
  match l.x, l.y, l.z with
  | some x, some y, some z => .ok ⟨l.axis, ![x, y, z]⟩
  | _, _, _ => .error .assertFailed

/-- A particle as `compute_tau` and `compute_colden` read it. Simplification: memory which was never written is an error
also for a particle far from all sightlines, of which only position and length are read. -/
def partOf (x : Handed) : CRes Part :=
  match x.pos, x.vel, x.h with
  | some pos, some vel, some h => .ok ⟨pos, vel, x.dens, x.temp, h⟩
  | _, _, _ => .error .assertFailed

/-- The interpolator, main.cpp:189-190: the Lyman alpha line of hydrogen, kernel number 1. -/
noncomputable def interpolator (profile : ℝ → ℝ → ℝ) (hd : SnapHeader) : Absorption.LineAbsorption :=
  Absorption.LineAbsorption.mk' profile 1215.6701e-8 6.265e8 0.416400 HMASS
    (mainVelfac hd.atime hd.h100 (headerHz hd.h100 hd.Omega0 hd.OmegaLambda hd.atime)) hd.box100 1 1e-5

/-- The loop over the files, main.cpp:199-241, with the arrays `tau_H1` and `colden_H1`. -/
noncomputable def runFiles (L : Absorption.LineAbsorption) (c : Cosmo) (box : ℝ) (lines : List Line) :
    List HFile → Mem → List ℝ → List ℝ → CRes (List ℝ × List ℝ)
  | [], _, tau, colden => .ok (tau, colden)
  | f :: fs, P, tau, colden => do
    let (ps, P) ← oneFile c f P
    let parts ← ps.mapM partOf
    let tau ← compute_tau L NBINS box lines parts tau
    let colden ← compute_colden L NBINS box lines parts colden
    runFiles L c box lines fs P tau colden

/-- A pass for an input which is not read as HDF5, main.cpp:213-240, in a build without the reader for Gadget's format: no
particles are read, and `free_parts` is called with pointers that were never set. -/
def noReader : CRes (List ℝ × List ℝ) := (free_parts .wild).bind (fun _ => .ok ([], []))

/-- The HDF5 file of a pass. -/
def Disk.fileOf (disk : Disk) : Read → Option HFile
  | .hdf name => some (disk.file name)
  | .gadget _ => none

/-- The passes of the loop for the names that are tried. -/
noncomputable def runReads (L : Absorption.LineAbsorption) (c : Cosmo) (box : ℝ) (lines : List Line) (disk : Disk)
    (reads : List Read) (tau colden : List ℝ) : CRes (List ℝ × List ℝ) :=
  match reads with
  | [.gadget _] => noReader
  | _ => runFiles L c box lines (reads.filterMap disk.fileOf) .wild tau colden

/-- How the program ends: by `exit` with a code, by returning 0 after writing a file, or in undefined behaviour. `opened` is
the output file if it was opened before that, which empties it. -/
inductive End where
  | exit (code : ℤ) (opened : Option (List Char))
  | wrote (name : List Char) (content : List ℕ)
  | undefined (opened : Option (List Char))

/-- An end that is not the regular one. -/
def End.ofErr (opened : Option (List Char)) : CErr → End
  | .exit code => .exit code opened
  | .outOfBounds => .undefined opened
  | .assertFailed => .undefined opened

/-- The files particles are read from, main.cpp:163-169 and 196-241, given what `load_hdf5_header` returned. -/
def particleFiles (disk : Disk) (indir : List Char) (fuel : ℕ) (ret : ℤ) : Option (List Read) :=
  if ret = 0 then filesRead disk.isHdf indir fuel else some [.gadget indir]

/-- The second half of `main`, from the opening of the output file, main.cpp:191-262. -/
noncomputable def finish (profile : ℝ → ℝ → ℝ) (bits : ℝ → Bits) (disk : Disk) (fuel : ℕ) (a : Args) (ret : ℤ)
    (hd : SnapHeader) (lines : List Line) : Option End :=
  if disk.canWrite a.outname = false then some (.exit 1 none)
  else match particleFiles disk a.indir fuel ret with
    | none => none
    | some reads =>
      let zeros := List.replicate (a.numLos * NBINS).toNat (0 : ℝ)
      match runReads (interpolator profile hd) ⟨hd.atime, hd.h100⟩ hd.box100 lines disk reads zeros zeros with
      | .error e => some (.ofErr (some a.outname) e)
      | .ok (tau, colden) => some (.wrote a.outname
          (specFile (bits hd.redshift) (bits hd.box100) a.numLos (tau.map bits) (colden.map bits)))

/-- `main`, main.cpp:93-262. `profile` is the Voigt profile, `bits` the bits of a number as `double`, `drand` the numbers
from `drand48`, `fuel` a bound on the number of files: `none` when numbers or bound do not suffice. An array of more
elements than an `int` can count, and a header that could not be read, leave no defined result. -/
noncomputable def extract (signedChar : Bool) (profile : ℝ → ℝ → ℝ) (bits : ℝ → Bits) (disk : Disk) (drand : List ℝ)
    (fuel : ℕ) (opts : List Opt) : Option End :=
  match options signedChar opts .init with
  | .error e => some (.ofErr none e)
  | .ok a =>
    if a.numLos ≤ 0 then some (.exit 99 none)
    else if a.indir = [] then some (.exit 99 none)
    else if 2 ^ 31 ≤ a.numLos * NBINS then some (.undefined none)
    else match (find_first_hdf_file disk.isHdf a.indir).bind (load_hdf5_header disk) with
      | none => some (.undefined none)
      | some (ret, hd) => match populate disk drand a hd.box100 with
        | none => none
        | some (.error e) => some (.ofErr none e)
        | some (.ok los) => match los.mapM lineOf with
          | .error e => some (.ofErr none e)
          | .ok lines => finish profile bits disk fuel a ret hd lines

end Verif.Extract
