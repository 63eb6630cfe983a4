import Verif.Model.CTools
import Verif.Model.IndexTable
import Verif.Model.Units
import Verif.Model.MeanFlux
import Mathlib.Analysis.SpecialFunctions.Pow.Real

/-!
Model of the rest of the stand-alone C tools in `cextract/`: reading the particles of one HDF5 file (read_hdf_snapshot.c:15-49,
107-226, with `alloc_parts` and `free_parts` of init.c), what `main` makes of them (main.cpp:195-241), the file `main` writes
(main.cpp:248-260), and the program `statistic` which reads it (statistic.c:31-230).

Numbers of the particles are exact reals. The arrays of three floats for each particle are lists of vectors. Memory that was
allocated and not yet written holds `none`.
-/

namespace Verif.CReader

/-! ### Reading the particles of one file -/

/-- A dataset: whether its number of dimensions (and of columns, for coordinates and velocities) is what the reader wants, whether
its elements are floats of four bytes, whether HDF5 can read it, and its rows. -/
structure Dataset (α : Type) where
  shapeOk : Bool
  float4 : Bool
  readable : Bool
  rows : List α

/-- The group `/PartType0`: `none` is a dataset which does not exist. -/
structure Gas where
  Coordinates : Option (Dataset Vec3)
  Velocities : Option (Dataset Vec3)
  Density : Option (Dataset ℝ)
  Masses : Option (Dataset ℝ)
  InternalEnergy : Option (Dataset ℝ)
  ElectronAbundance : Option (Dataset ℝ)
  NeutralHydrogenAbundance : Option (Dataset ℝ)
  Volume : Option (Dataset ℝ)
  SmoothingLength : Option (Dataset ℝ)

/-- What is used of the header of a file: `NumPart_ThisFile[0]`, `MassTable[0]` and `Flag_Cooling`. -/
structure Header where
  npart : ℕ
  mass : ℝ
  flag_cooling : ℤ

/-- A file: `header` is `none` if the file, its header or one of the four attributes cannot be read, `gas` is `none` if there is no
group for the gas. -/
structure HFile where
  header : Option Header
  gas : Option Gas

/-- `get_single_dataset` and `get_triple_dataset`, read_hdf_snapshot.c:16-49: the number of rows read, 0 on failure, and the array
after the call. -/
def get_dataset {α : Type} (d : Option (Dataset α)) (buf : List (Option α)) (data_length : ℕ) : ℕ × List (Option α) :=
  match d with
  | none => (0, buf)
  | some d =>
    if d.shapeOk = false then (0, buf)
    else if d.float4 = false ∨ d.rows.length > data_length ∨ d.readable = false then (0, buf)
    else (d.rows.length, d.rows.map some ++ buf.drop d.rows.length)

/-- The arrays of `struct particle_data`, global_vars.h:10-19. -/
structure Arrays where
  Pos : List (Option Vec3)
  Vel : List (Option Vec3)
  Mass : List (Option ℝ)
  U : List (Option ℝ)
  fraction : List (Option ℝ)
  temp : List (Option ℝ)
  Ne : List (Option ℝ)
  h : List (Option ℝ)

/-- `alloc_parts`, init.c:57-67. Memory is taken to be enough, also for no particles. -/
def alloc_parts (np : ℕ) : Arrays :=
  { Pos := List.replicate np none, Vel := List.replicate np none, Mass := List.replicate np none, U := List.replicate np none,
    fraction := List.replicate np none, temp := List.replicate np none, Ne := List.replicate np none, h := List.replicate np none }

open Classical in
/-- The masses, read_hdf_snapshot.c:159-168: whether the reading goes on, `using_mass`, and the array. -/
noncomputable def readMass (hd : Header) (g : Gas) (length : ℕ) (buf : List (Option ℝ)) :
    Bool × Bool × List (Option ℝ) :=
  if hd.mass ≠ 0 then (true, false, (List.replicate length (some hd.mass)) ++ buf.drop length)
  else
    let (n, buf) := get_dataset g.Density buf length
    if length ≠ n then
      let (n, buf) := get_dataset g.Masses buf length
      if length ≠ n then (false, false, buf) else (true, true, buf)
    else (true, false, buf)

/-- The electrons and the neutral fraction, read_hdf_snapshot.c:176-186: whether the reading goes on, and the two arrays. -/
def readCool (hd : Header) (g : Gas) (length : ℕ) (ne fraction : List (Option ℝ)) : Bool × List (Option ℝ) × List (Option ℝ) :=
  if hd.flag_cooling ≠ 0 then
    let (n, ne) := get_dataset g.ElectronAbundance ne length
    if length ≠ n then (false, ne, fraction) else
    let (n, fraction) := get_dataset g.NeutralHydrogenAbundance fraction length
    if length ≠ n then (false, ne, fraction) else (true, ne, fraction)
  else (true, ne, fraction)

/-- `a[i] = f(a[i])` for `i < n`. -/
def mapFirst {α : Type} (f : α → α) (n : ℕ) (buf : List (Option α)) : List (Option α) := (buf.take n).map (Option.map f) ++ buf.drop n

/-- The smoothing lengths, read_hdf_snapshot.c:188-204: whether the reading goes on, and the array. -/
noncomputable def readH (g : Gas) (length : ℕ) (buf : List (Option ℝ)) : Bool × List (Option ℝ) :=
  if g.Volume.isSome then
    let (n, buf) := get_dataset g.Volume buf length
    if length ≠ n then (false, buf) else (true, mapFirst (fun v => v ^ (0.33333333 : ℝ)) length buf)
  else
    let (n, buf) := get_dataset g.SmoothingLength buf length
    if length ≠ n then (false, buf) else (true, mapFirst (fun x => x / 2) length buf)

/-- `m/pow(h,3)`; unknown if one of them is. -/
noncomputable def overCube (m h : Option ℝ) : Option ℝ := m.bind (fun m => h.map (fun h => m / h ^ 3))

/-- `Mass[k] = Mass[k]/pow(h[k],3)`, read_hdf_snapshot.c:205-211, for all particles of the header. -/
noncomputable def massToDensity (mass h : List (Option ℝ)) : List (Option ℝ) := List.zipWith overCube mass h

/-- read_hdf_snapshot.c:151-212: the value of `length` and the arrays when control reaches the label `exit`. -/
noncomputable def readGas (hd : Header) (g : Gas) (a : Arrays) : ℕ × Arrays :=
  let (length, pos) := get_dataset g.Coordinates a.Pos hd.npart
  let a := { a with Pos := pos }
  if length = 0 then (length, a) else
  let (n, vel) := get_dataset g.Velocities a.Vel length
  let a := { a with Vel := vel }
  if length ≠ n then (length, a) else
  let (go, using_mass, mass) := readMass hd g length a.Mass
  let a := { a with Mass := mass }
  if go = false then (length, a) else
  let (n, u) := get_dataset g.InternalEnergy a.U length
  let a := { a with U := u }
  if length ≠ n then (length, a) else
  let (go, ne, fraction) := readCool hd g length a.Ne a.fraction
  let a := { a with Ne := ne, fraction := fraction }
  if go = false then (length, a) else
  let (go, h) := readH g length a.h
  let a := { a with h := h }
  if go = false then (length, a) else
  let a := if using_mass then { a with Mass := massToDensity a.Mass a.h } else a
  (length, a)

/-- The pointers of `P`: to arrays, or to nothing that may be used (never set, or freed). -/
inductive Mem where
  | wild
  | live (a : Arrays)

/-- `load_hdf5_snapshot`, read_hdf_snapshot.c:109-226, for a file number of at least 1 (`main` starts with 1): the value returned,
and the pointers. -/
noncomputable def load_hdf5_snapshot (f : HFile) (P : Mem) : ℤ × Mem :=
  match f.header with
  | none => (-1, P)
  | some hd =>
    let a := alloc_parts hd.npart
    match f.gas with
    | none => (-1, .live a)
    | some g =>
      let (length, a) := readGas hd g a
      (length, .live a)

/-! ### What `main` makes of the particles -/

/-- The numbers of the header of the snapshot used for the particles. -/
structure Cosmo where
  atime : ℝ
  h100 : ℝ

/-- `GADGET_MASS`, main.cpp:43. -/
noncomputable def GADGET_MASS : ℝ := 1.98892e43
/-- `GADGET_LENGTH`, main.cpp:45. -/
noncomputable def GADGET_LENGTH : ℝ := 3.085678e21
/-- `HMASS`, main.cpp:34. -/
noncomputable def HMASS : ℝ := 1.00794
/-- `PROTONMASS`, absorption.h:4. -/
noncomputable def PROTONMASS : ℝ := 1.67262178e-24
/-- `XH`, main.cpp:48. -/
noncomputable def XH : ℝ := 0.76
/-- `PHYSDENSTHRESH`, main.cpp:41. -/
noncomputable def PHYSDENSTHRESH : ℝ := 0.12948869200298072

/-- `rscale`, main.cpp:224. -/
noncomputable def Cosmo.rscale (c : Cosmo) : ℝ := GADGET_LENGTH * c.atime / c.h100

/-- `dscale`, main.cpp:226. -/
noncomputable def Cosmo.dscale (c : Cosmo) : ℝ :=
  GADGET_MASS / GADGET_LENGTH ^ 3 * c.h100 * c.h100 / (HMASS * PROTONMASS) / c.atime ^ 3

/-- `Hz`, read_hdf_snapshot.c:83. -/
noncomputable def headerHz (h100 Omega0 OmegaLambda atime : ℝ) : ℝ :=
  100 * h100 * Real.sqrt (1 + Omega0 * (1 / atime - 1) + OmegaLambda * (atime ^ 2 - 1)) / atime

/-- `velfac`, main.cpp:189. -/
noncomputable def mainVelfac (atime h100 Hz : ℝ) : ℝ := atime / h100 * Hz / 1e3

/-- `a[i]` for an array of which some elements may not have been written: using those has no defined result (`assertFailed`). -/
def readSet {α : Type} (a : List (Option α)) (i : ℕ) : CRes α :=
  match a[i]? with
  | none => .error .outOfBounds
  | some none => .error .assertFailed
  | some (some x) => .ok x

/-- A particle passed to `compute_tau` and `compute_colden`, which read the three arrays from the file when they need them. -/
structure Handed where
  pos : Option Vec3
  vel : Option Vec3
  dens : ℝ
  temp : ℝ
  h : Option ℝ

/-- `a[i]`, not used yet. -/
def peek {α : Type} (a : List (Option α)) (i : ℕ) : CRes (Option α) :=
  match a[i]? with
  | none => .error .outOfBounds
  | some x => .ok x

/-- One pass of the loop main.cpp:227-234, and the elements of the arrays passed on. -/
noncomputable def convert (c : Cosmo) (a : Arrays) (ii : ℕ) : CRes Handed := do
  let m ← readSet a.Mass ii
  let m := m * (c.dscale * XH)
  let m ← if m ≤ PHYSDENSTHRESH then (do
      let f ← readSet a.fraction ii
      pure (m * f)) else pure m
  let m := m * c.rscale
  let u ← readSet a.U ii
  let ne ← readSet a.Ne ii
  let pos ← peek a.Pos ii
  let vel ← peek a.Vel ii
  let h ← peek a.h ii
  pure ⟨pos, vel, m, Units.compute_temp u ne XH, h⟩

/-- `free_parts`, init.c:69-80. -/
def free_parts : Mem → CRes Mem
  | .live _ => .ok .wild
  | .wild => .error .assertFailed

/-- One pass of the loop over the files, main.cpp:212-240: the particles given to the interpolator, and the pointers. -/
noncomputable def oneFile (c : Cosmo) (f : HFile) (P : Mem) : CRes (List Handed × Mem) :=
  match load_hdf5_snapshot f P with
  | (npart, P) => do
    let parts ← (List.range npart.toNat).mapM (fun ii => match P with
      | .live a => convert c a ii
      | .wild => .error .assertFailed)
    let P ← free_parts P
    pure (parts, P)

/-- The loop over the files, main.cpp:195-241. -/
noncomputable def allFiles (c : Cosmo) : List HFile → Mem → CRes (List (List Handed))
  | [], _ => .ok []
  | f :: fs, P => do
    let (ps, P) ← oneFile c f P
    let r ← allFiles c fs P
    pure (ps :: r)

/-! ### The file of spectra -/

/-- The `w` bytes of a number as the machine (little endian) stores it. -/
def bytes : ℕ → ℕ → List ℕ
  | 0, _ => []
  | w + 1, n => n % 256 :: bytes w (n / 256)

/-- The number stored in some bytes. -/
def unbytes : List ℕ → ℕ
  | [] => 0
  | b :: bs => b + 256 * unbytes bs

/-- An `int` of four bytes. -/
def intBytes (z : ℤ) : List ℕ := bytes 4 (z % 2 ^ 32).toNat

/-- The `int` stored in four bytes. -/
def intOf (bs : List ℕ) : ℤ := if unbytes bs < 2 ^ 31 then unbytes bs else (unbytes bs : ℤ) - 2 ^ 32

/-- A `double`: its 64 bits as a number. -/
abbrev Bits := ℕ

/-- `NBINS`, main.cpp:50. -/
def NBINS : ℕ := 1024

/-- What `main` writes, main.cpp:248-260: a header of 128 bytes, optical depths, column densities. -/
def specFile (redshift box100 : Bits) (NumLos : ℤ) (tau colden : List Bits) : List ℕ :=
  bytes 8 redshift ++ bytes 8 box100 ++ intBytes NBINS ++ intBytes NumLos ++ (List.replicate (32 - 6) (intBytes 0)).flatten ++
    (tau.map (bytes 8)).flatten ++ (colden.map (bytes 8)).flatten

/-- `fread(&x, w, 1, input)` without a look at its result: nothing left leaves `x` as it was, too few bytes leave in `x` something
unknown that may depend on them. -/
def fread1 {α : Type} (w : ℕ) (of junk : List ℕ → α) (old : α) (s : List ℕ) : α × List ℕ :=
  if s = [] then (old, [])
  else if s.length < w then (junk s, [])
  else (of (s.take w), s.drop w)

/-- `fread(a, 8, n, input)`: the doubles that could be read. -/
def fread8 : ℕ → List ℕ → List Bits
  | 0, _ => []
  | n + 1, s => if s.length < 8 then [] else unbytes (s.take 8) :: fread8 n (s.drop 8)

/-! ### The program `statistic` -/

/-- The options of `statistic`: the numbers given with `-s` (they are added), with `-u`, whether `-r` was not given, and `-i`, `-o`. -/
structure Opts where
  s : List ℤ
  u : ℤ
  rescale : Bool
  inname : Option (List Char)
  outdir : Option (List Char)

/-- What `statistic` knows after reading its input: the redshift (`none` if it was not read), the number of pixels and of sightlines,
and the optical depths. -/
structure Input where
  redshift : Option Bits
  nbins : ℤ
  UsedLos : ℤ
  tau : List Bits

/-- statistic.c:112-164: reading the file of spectra. `junk8`, `junk4`: see `fread1`. The product of the numbers of pixels and of
sightlines is taken not to overflow; `calloc` fails for negative sizes. The last `printf` reads the last optical depth. -/
def readInput (junk8 : List ℕ → ℕ) (junk4 : List ℕ → ℤ) (u : ℤ) (s : List ℕ) : CRes Input :=
  let (redshift, s) := fread1 8 (fun b => some (unbytes b)) (fun b => some (junk8 b)) none s
  let (_, s) := fread1 8 unbytes junk8 0 s
  let (nbins, s) := fread1 4 intOf junk4 0 s
  let (NumLos, s) := fread1 4 intOf junk4 0 s
  let s := s.drop (4 * (32 - 6))
  let UsedLos := if u = 0 then NumLos else u
  if NumLos ≤ 0 then .error (.exit 99)
  else if UsedLos * nbins < 0 then .error (.exit 1)
  else if (nbins + 1).tdiv 2 < 0 then .error (.exit 1)
  else
    let tau := fread8 (nbins * UsedLos).toNat s
    if tau.length ≠ (nbins * UsedLos).toNat then .error (.exit 2)
    else if nbins * UsedLos = 0 then .error .outOfBounds
    else .ok ⟨redshift, nbins, UsedLos, tau⟩

/-- `TAU_EFF`, statistic.c:25. -/
noncomputable def TAU_EFF (redshift : ℝ) : ℝ := 0.0023 * (1 + redshift) ^ (3.65 : ℝ)

/-- `_spectra.dat`. -/
def datSuffix : List Char := ['_', 's', 'p', 'e', 'c', 't', 'r', 'a', '.', 'd', 'a', 't']
/-- `_flux_power.txt`, statistic.c:184. -/
def powerSuffix : List Char := ['_', 'f', 'l', 'u', 'x', '_', 'p', 'o', 'w', 'e', 'r', '.', 't', 'x', 't']
/-- `_flux_pdf.txt`, statistic.c:190. -/
def pdfSuffix : List Char := ['_', 'f', 'l', 'u', 'x', '_', 'p', 'd', 'f', '.', 't', 'x', 't']

/-- The name of the file in `output`, statistic.c:203-219: the suffix replaces all from the first `_spectra.dat`, if there is one. -/
def outName (outdir suffix : List Char) : List Char :=
  match CTools.strFind (outdir ++ suffix) datSuffix with
  | some p => (outdir ++ suffix).take p ++ suffix
  | none => outdir ++ suffix

/-- The sightlines of an array of `nbins` optical depths each. -/
def rowsOf (nbins n : ℕ) (tau : List ℝ) : List (List ℝ) := (List.range n).map (fun j => (tau.drop (j * nbins)).take nbins)

/-- The scale, statistic.c:170-181; `none` when the iteration does not end. -/
noncomputable def scaleOf (fuel : ℕ) (rescale : Bool) (tau : List ℝ) (redshift : ℝ) : Option (Option ℝ) :=
  if rescale then MeanFlux.c_mean_flux tau (Real.exp (-TAU_EFF redshift)) 1e-5 fuel else some (some 1)

/-- `statistic & 1`, of an `int`. -/
def bit1 (s : ℤ) : Bool := s % 2 = 1
/-- `statistic & 2`. -/
def bit2 (s : ℤ) : Bool := (s / 2) % 2 = 1

/-- The files written, statistic.c:182-194, in order: names and numbers. -/
noncomputable def writeStats (statistic : ℤ) (outdir : List Char) (nbins n : ℕ) (tau : List ℝ) (scale tau_eff : ℝ) :
    CRes (List (List Char × List ℝ)) := do
  let rows := rowsOf nbins n tau
  let (files, rows) ← if bit2 statistic then (do
      let (p, rows) ← CTools.calc_power_spectra nbins rows scale tau_eff
      pure ([(outName outdir powerSuffix, p)], rows)) else pure ([], rows)
  if bit1 statistic then (do
    let p ← FluxStats.calc_pdf 20 scale rows.flatten
    pure (files ++ [(outName outdir pdfSuffix, p)])) else pure files

/-- The program `statistic`, statistic.c:31-201: the files written. `content` is the input file, if it can be opened; `val` is the
number a pattern of bits stands for. The outer `none`: it does not end. A scale that is not a number is not followed further
(`assertFailed`), nor is a redshift that was not read; output files can be opened. -/
noncomputable def statistic (fuel : ℕ) (val : Bits → ℝ) (junk8 : List ℕ → ℕ) (junk4 : List ℕ → ℤ) (o : Opts) (content : Option (List ℕ)) :
    Option (CRes (List (List Char × List ℝ))) :=
  match o.inname with
  | none => some (.error (.exit 99))
  | some inname =>
    let outdir := o.outdir.getD inname
    if !(bit1 o.s.sum || bit2 o.s.sum) then some (.error (.exit 99))
    else match content with
      | none => some (.error (.exit 2))
      | some s => match readInput junk8 junk4 o.u s with
        | .error e => some (.error e)
        | .ok inp => match inp.redshift with
          | none => some (.error .assertFailed)
          | some z =>
            let tau := inp.tau.map val
            match scaleOf fuel o.rescale tau (val z) with
            | none => none
            | some none => some (.error .assertFailed)
            | some (some scale) =>
              some (writeStats o.s.sum outdir inp.nbins.toNat inp.UsedLos.toNat tau scale (TAU_EFF (val z)))

end Verif.CReader
