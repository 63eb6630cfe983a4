import Verif.Model.ComputeSpectra
import Verif.Model.SpecTools

/-!
Model of the quantities averaged over the gas of a pixel (fake_spectra/spectra.py:945-1047), the mass fractions of elements
(spectra.py:687-711) and the metallicity of sightlines (spectra.py:772-799).
-/

namespace Verif.WeightMean
open Verif Verif.ComputeSpectra Verif.PartInt Verif.Np

/-- `_temp_single_file`, spectra.py:994-1002, and one component of `_vel_single_file`, spectra.py:945-956, with the weight of a
particle. The particles are read as for an optical depth; what is interpolated is the density times the weight. -/
noncomputable def weighted_single_file (c : Config) (phys : ℝ) (w : Part → ℝ) (seg : List Raw) : Outcome (List ℝ) :=
  match read_particle_data c true seg with
  | .error e => .raised e
  | .ok none => .value (zeros c)
  | .ok (some parts) => match interpolate c false (parts.map (fun p => { p with dens := p.dens * w p / phys })) with
    | .error e => .crashed e
    | .ok a => .value a

/-- The sum over the segments of this rank, spectra.py:964-972, of any quantity of one segment. -/
noncomputable def addFiles (func : List Raw → Outcome (List ℝ)) (result : List ℝ) : List (List Raw) → Outcome (List ℝ)
  | [] => .value result
  | seg :: segs => match func seg with
    | .value t => addFiles func (addArr result t) segs
    | .raised e => .raised e
    | .crashed e => .crashed e

/-- The first segment is read even if there is none, spectra.py:965. -/
noncomputable def sumFiles (func : List Raw → Outcome (List ℝ)) : List (List Raw) → Outcome (List ℝ)
  | [] => .raised .indexError
  | seg :: segs => match func seg with
    | .value t => addFiles func t segs
    | .raised e => .raised e
    | .crashed e => .crashed e

/-- `result /= den` after `den[den == 0] = 1`, spectra.py:973-976. -/
noncomputable def divide (result den : List ℝ) : List ℝ := List.zipWith (fun r d => r / (if d = 0 then 1 else d)) result den

/-- The two kinds of snapshots, abstractsnapshot.py. -/
inductive Format where
  | hdf5
  | bigfile

/-- `self.snapshot_set.get_n_segments()` without a particle type, spectra.py:964: for BigFile snapshots the argument is required,
abstractsnapshot.py:337 (`big_n_segments` in Model/Snapshot). -/
def countSegments (f : Format) (own : List (List Raw)) : Py ℕ :=
  match f with
  | .hdf5 => .ok own.length
  | .bigfile => .error .typeError

/-- `compute_spectra` on one process for the moving mesh, spectra.py:501-548, 815-817, with the call of `get_n_segments()` in
`_interpolate_single_file`, spectra.py:505, which comes after the first segment is read. -/
noncomputable def meshFrom (f : Format) (c : Config) (get_tau : Bool) (own : List (List Raw)) : Outcome (List ℝ) :=
  match own with
  | [] => .raised .indexError
  | seg :: _ =>
    match read_particle_data c get_tau seg with
    | .error e => .raised e
    | .ok _ =>
      match countSegments f own with
      | .error e => .raised e
      | .ok n => compute_spectra_mesh c get_tau (own.take n)

/-- `_get_mass_weight_quantity`, spectra.py:958-981, for one number per pixel, on the rank reading the segments `own`. `ranks`
are the segments of all ranks: the density is summed over them (`compute_spectra`), the other sum is not. -/
noncomputable def mass_weight (f : Format) (c : Config) (phys : ℝ) (func : List Raw → Outcome (List ℝ)) (own : List (List Raw))
    (ranks : List (List (List Raw))) : Outcome (List ℝ) :=
  match countSegments f own with
  | .error e => .raised e
  | .ok _ => match sumFiles func own with
  | .raised e => .raised e
  | .crashed e => .crashed e
  | .value result => match compute_spectra_mpi c false ranks with
    | .raised e => .raised e
    | .crashed e => .crashed e
    | .value colden => .value (divide result (colden.map (fun x => x / phys)))

/-- `get_temp`, spectra.py:1004-1013. -/
noncomputable def get_temp (f : Format) (c : Config) (phys : ℝ) (own : List (List Raw)) (ranks : List (List (List Raw))) : Outcome (List ℝ) :=
  mass_weight f c phys (weighted_single_file c phys (fun p => p.temp)) own ranks

/-- The sum for one component of the velocity, spectra.py:952-955: the peculiar velocity times `sqrt(atime)`. -/
noncomputable def velocity_sum (f : Format) (c : Config) (phys atime : ℝ) (ax : Fin 3) (own : List (List Raw)) : Outcome (List ℝ) :=
  match countSegments f own with
  | .error e => .raised e
  | .ok _ => sumFiles (weighted_single_file c phys (fun p => p.vel ax * Real.sqrt atime)) own

/-- Whether `result /= den` can be broadcast although `result` has the shape `(NumLos, nbins, 3)` and `den` the shape
`(NumLos, nbins)`. -/
def broadcasts (numLos nbins : ℕ) : Bool := (nbins == 1 || nbins == 3) && (numLos == 1 || numLos == nbins)

/-- The element of `den` by which element `(i, j, ax)` of the velocity is divided, spectra.py:975-980. -/
def velocityDen (numLos nbins i j ax : ℕ) : ℕ :=
  if broadcasts numLos nbins then (if numLos = 1 then 0 else j) * nbins + (if nbins = 1 then 0 else ax) else i * nbins + j

/-- `get_velocity`, spectra.py:983-992: component `ax` in pixel `j` of sightline `i`; `none` outside the array. -/
noncomputable def get_velocity (f : Format) (c : Config) (phys atime : ℝ) (own : List (List Raw)) (ranks : List (List (List Raw))) :
    Outcome (ℕ → ℕ → Fin 3 → Option ℝ) :=
  match velocity_sum f c phys atime 0 own, velocity_sum f c phys atime 1 own, velocity_sum f c phys atime 2 own with
  | .value x, .value y, .value z => match compute_spectra_mpi c false ranks with
    | .raised e => .raised e
    | .crashed e => .crashed e
    | .value colden => .value (fun i j ax => do
        let r ← (![x, y, z] ax)[i * c.nbins + j]?
        let d ← (colden.map (fun x => x / phys))[velocityDen c.lines.length c.nbins i j ax]?
        pure (r / (if d = 0 then 1 else d)))
  | .raised e, _, _ => .raised e
  | .crashed e, _, _ => .crashed e
  | _, .raised e, _ => .raised e
  | _, .crashed e, _ => .crashed e
  | _, _, .raised e => .raised e
  | _, _, .crashed e => .crashed e

/-- `_densweightdens`, spectra.py:1015-1024: the density of the ion times the density of the element. The arrays have different
lengths if particles without the element were dropped from the first one; multiplying them raises `ValueError`. (If one of them
has length 1 the product is as long as the other, and the extension raises the same exception, or the weights are one number:
not modelled.) -/
noncomputable def densweight_single_file (c : Config) (phys : ℝ) (seg : List Raw) : Outcome (List ℝ) :=
  match read_particle_data c true seg with
  | .error e => .raised e
  | .ok none => .value (zeros c)
  | .ok (some parts) => match read_particle_data { c with sp := .all } true seg with
    | .error e => .raised e
    | .ok none => .raised .typeError
    | .ok (some all) =>
      if parts.length = all.length then
        match interpolate c false (List.zipWith (fun p q => { p with dens := p.dens / phys * (q.dens / c.rscale) }) parts all) with
        | .error e => .crashed e
        | .ok a => .value a
      else .raised .valueError

/-- `get_dens_weighted_density`, spectra.py:1026-1047. -/
noncomputable def get_dens_weighted_density (f : Format) (c : Config) (phys : ℝ) (own : List (List Raw)) (ranks : List (List (List Raw))) :
    Outcome (List ℝ) :=
  mass_weight f c phys (densweight_single_file c phys) own ranks

/-! ### Mass fractions -/

/-- The elements, spectra.py:243. -/
def species : List String := ["H", "He", "C", "N", "O", "Ne", "Mg", "Si", "Fe", "Z"]

/-- The blocks of one segment: metallicities, the table of mass fractions, and the number of particles. -/
structure Blocks where
  metallicity : Option (List ℝ)
  gfm : Option (List (List ℝ))
  nvalues : ℕ

/-- `species.index(elem)`. -/
def indexOf (elem : String) : Py ℕ := if elem ∈ species then .ok (species.idxOf elem) else .error .valueError

/-- `get_mass_frac`, spectra.py:687-711. A missing block raises `KeyError`. -/
noncomputable def get_mass_frac (b : Blocks) (elem : String) (ind : List ℕ) : Py (List ℝ) := do
  let mass_frac ← (if elem = "Z" then
      match b.metallicity with
      | some z => .ok z
      | none => .error .keyError
    else do
      let nelem ← indexOf elem
      match b.gfm with
      | some rows => rows.mapM (fun row => Np.get row nelem)
      | none => do
        let a ← Np.get ([0.76, 0.24] : List ℝ) nelem
        pure (List.replicate b.nvalues a) : Py (List ℝ))
  let mass_frac ← ind.mapM (fun (i : ℕ) => Np.get mass_frac (i : ℤ))
  pure (mass_frac.map (fun x => if x ≤ 0 then 0 else x))

/-! ### Metallicity -/

/-- A quotient of numpy numbers: `none` for a division by zero, whose result is not a number or infinite. -/
noncomputable def fdiv (x y : ℝ) : Option ℝ := if y = 0 then none else some (x / y)

/-- The sums of one sightline around the pixel `imax`, spectra.py:781-783. -/
noncomputable def windowSum (imax wbins : ℕ) (row : List ℝ) : ℝ := (Np.slice row (imax - wbins) (imax + wbins)).sum

/-- `get_metallicity`, spectra.py:772-787, from the densities of metals and of hydrogen. -/
noncomputable def get_metallicity (MM HH : List (List ℝ)) (nbins : ℕ) (dvbin solarz width : ℝ) : Py (List (Option ℝ)) :=
  if width > 0 then do
    let (rolls, hhr) ← SpecTools.get_rolled_spectra HH
    let mmr := List.zipWith (fun m r => Np.roll m r) MM rolls
    let imax := nbins / 2
    let wbins := min ⌊width / dvbin⌋₊ imax
    pure (List.zipWith (fun m h => (fdiv m h).map (fun x => x / solarz)) (mmr.map (windowSum imax wbins)) (hhr.map (windowSum imax wbins)))
  else .ok (List.zipWith (fun m h => (fdiv m h).map (fun x => x / solarz)) (MM.map List.sum) (HH.map List.sum))

/-- The solar abundances, spectra.py:245. -/
noncomputable def solar : String → Option ℝ
  | "H" => some 1
  | "He" => some 0.0851
  | "C" => some 2.69e-4
  | "N" => some 6.76e-5
  | "O" => some 4.9e-4
  | "Ne" => some 8.51e-5
  | "Mg" => some 3.98e-5
  | "Si" => some 3.24e-5
  | "Fe" => some 3.16e-5
  | _ => none

/-- `get_ion_metallicity`, spectra.py:793-799. -/
noncomputable def get_ion_metallicity (elem : String) (MM HH : List (List ℝ)) : Py (List (Option ℝ)) :=
  match solar elem with
  | none => .error .keyError
  | some s => .ok (List.zipWith (fun m h => (fdiv m h).map (fun x => x / s)) (MM.map List.sum) (HH.map List.sum))

end Verif.WeightMean
