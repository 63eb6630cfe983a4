import Verif.Model.WeightMean

/-!
The densities handed to the interpolator, in single precision: every array is converted to `np.float32` when it is read and `rscale` is one
(fake_spectra/spectra.py:210, 552-597, 664, 696-710), so that all products are too. `fl` is what the exact result of an operation becomes when it is a
`np.float32`. Positions and radii are taken to be single precision numbers already.
-/

namespace Verif.DensityRounding
open Verif Verif.IndexTable Verif.PartInt Verif.Absorption Verif.ComputeSpectra

/-- `elem_den` before the ionisation correction, fake_spectra/spectra.py:576, 594 and 210, 710. -/
noncomputable def elemDen (fl : ℝ → ℝ) (c : Config) (r : Raw) : ℝ := fl (fl (fl r.den * fl c.rscale) * fl r.massFrac)

/-- The particle passed to the interpolator, fake_spectra/spectra.py:573, 615-617. The mass is a Python number, which takes the type of the array. -/
noncomputable def toPart (fl : ℝ → ℝ) (c : Config) (r : Raw) (dens temp : ℝ) : Part :=
  ⟨r.pos, fun k => fl (r.vel k), fl (dens / fl c.amumass), temp, r.h⟩

/-- The temperature, fake_spectra/spectra.py:585-590. -/
noncomputable def temperature (fl : ℝ → ℝ) (r : Raw) : ℝ := fixTemp (fl r.temp)

/-- `_read_particle_data`, fake_spectra/spectra.py:550-617, as in `ComputeSpectra.read_particle_data`. The ionisation table is that of
`_get_elem_den`, fake_spectra/spectra.py:637-664. An ion of hydrogen other than neutral, whose column density raises an error (C56), is left out. -/
noncomputable def read_particle_data (fl : ℝ → ℝ) (c : Config) (get_tau : Bool) (seg : List Raw) : Py (Option (List Part)) := do
  let ind ← particles_near_lines c seg
  if ind.isEmpty then .ok none
  else
    let sel := ind.filterMap (fun i => seg[i]?)
    match c.sp with
    | .HI => .ok (some (sel.map (fun r => toPart fl c r (fl (elemDen fl c r * fl r.nHI)) (if get_tau then temperature fl r else 0))))
    | .all => .ok (some (sel.map (fun r => toPart fl c r (elemDen fl c r) (if get_tau then temperature fl r else 0))))
    | .ion table | .Hion table =>
      let sel := sel.filter (fun r => decide (0 < elemDen fl c r))
      if sel.isEmpty then .ok none
      else .ok (some (sel.map (fun r =>
        toPart fl c r (fl (elemDen fl c r * fl (table (fl r.den) (temperature fl r)))) (temperature fl r))))

/-- `_interpolate_single_file`, fake_spectra/spectra.py:501-548. -/
noncomputable def interpolate_single_file (fl : ℝ → ℝ) (c : Config) (get_tau : Bool) (seg : List Raw) : Outcome (List ℝ) :=
  match DensityRounding.read_particle_data fl c get_tau seg with
  | .error e => .raised e
  | .ok none => .value (zeros c)
  | .ok (some parts) => match interpolate c get_tau parts with
    | .error e => .crashed e
    | .ok a => .value a

/-- The loop over the remaining segments, fake_spectra/spectra.py:819-824. The sums are exact here; their rounding is in `Model/Rounding`. -/
noncomputable def addSegments (fl : ℝ → ℝ) (c : Config) (get_tau : Bool) (result : List ℝ) : List (List Raw) → Outcome (List ℝ)
  | [] => .value result
  | seg :: segs => match DensityRounding.interpolate_single_file fl c get_tau seg with
    | .value t => addSegments fl c get_tau (addArr result t) segs
    | .raised e => .raised e
    | .crashed e => .crashed e

/-- `compute_spectra` on one rank for kernels other than the Voronoi mesh, fake_spectra/spectra.py:801-831, as in `ComputeSpectra.compute_spectra`. -/
noncomputable def compute_spectra (fl : ℝ → ℝ) (c : Config) (get_tau : Bool) : List (List Raw) → Outcome (List ℝ)
  | [] => .raised .indexError
  | seg :: segs => match DensityRounding.interpolate_single_file fl c get_tau seg with
    | .value t => DensityRounding.addSegments fl c get_tau t segs
    | .raised e => .raised e
    | .crashed e => .crashed e

/-- The loop of `load_all_data_first`, fake_spectra/spectra.py:504-525, as in `ComputeSpectra.loadRest`. -/
noncomputable def loadRest (fl : ℝ → ℝ) (c : Config) (get_tau : Bool) (acc : Option (List Part)) : List (List Raw) → Py (Option (List Part))
  | [] => .ok acc
  | seg :: segs => do
    let r ← DensityRounding.read_particle_data fl c get_tau seg
    match r, acc with
    | none, _ => loadRest fl c get_tau acc segs
    | some ps, none => loadRest fl c get_tau (some ps) segs
    | some ps, some qs => loadRest fl c get_tau (some (qs ++ ps)) segs

/-- `compute_spectra` on one rank for the moving mesh, fake_spectra/spectra.py:501-548, 815-817, as in `ComputeSpectra.compute_spectra_mesh`. The limits of
cells are exact here; their rounding is in `Model/CellRounding`. -/
noncomputable def compute_spectra_mesh (fl : ℝ → ℝ) (c : Config) (get_tau : Bool) : List (List Raw) → Outcome (List ℝ)
  | [] => .raised .indexError
  | seg :: segs => match (do
      let first ← DensityRounding.read_particle_data fl c get_tau seg
      DensityRounding.loadRest fl c get_tau first segs) with
    | .error e => .raised e
    | .ok none => .value (zeros c)
    | .ok (some parts) => match interpolate c get_tau parts with
      | .error e => .crashed e
      | .ok a => .value a

/-- `_temp_single_file`, fake_spectra/spectra.py:994-1002: the density times the temperature over `phys`, all in single precision. -/
noncomputable def temp_single_file (fl : ℝ → ℝ) (c : Config) (phys : ℝ) (seg : List Raw) : Outcome (List ℝ) :=
  match DensityRounding.read_particle_data fl c true seg with
  | .error e => .raised e
  | .ok none => .value (zeros c)
  | .ok (some parts) => match interpolate c false (parts.map (fun p => { p with dens := fl (fl (p.dens * p.temp) / fl phys) })) with
    | .error e => .crashed e
    | .ok a => .value a

/-- `get_temp` on one process for HDF5 snapshots, fake_spectra/spectra.py:958-981, 1004-1013; `get_density` (875-879) divides by `phys` in double precision.
The sums over segments and the quotient of the arrays of pixels are exact here; the rounding of such sums is in `Model/Rounding`. -/
noncomputable def get_temp (fl : ℝ → ℝ) (c : Config) (phys : ℝ) (segs : List (List Raw)) : Outcome (List ℝ) :=
  match WeightMean.sumFiles (temp_single_file fl c phys) segs with
  | .raised e => .raised e
  | .crashed e => .crashed e
  | .value result => match DensityRounding.compute_spectra fl c false segs with
    | .raised e => .raised e
    | .crashed e => .crashed e
    | .value colden => .value (WeightMean.divide result (colden.map (fun x => x / phys)))

/-- `_densweightdens`, fake_spectra/spectra.py:1015-1024, as in `WeightMean.densweight_single_file`: both densities and their product in single precision.
`rscale` is a single precision number. -/
noncomputable def densweight_single_file (fl : ℝ → ℝ) (c : Config) (phys : ℝ) (seg : List Raw) : Outcome (List ℝ) :=
  match DensityRounding.read_particle_data fl c true seg with
  | .error e => .raised e
  | .ok none => .value (zeros c)
  | .ok (some parts) => match DensityRounding.read_particle_data fl { c with sp := .all } true seg with
    | .error e => .raised e
    | .ok none => .raised .typeError
    | .ok (some all) =>
      if parts.length = all.length then
        match interpolate c false (List.zipWith (fun p q => { p with dens := fl (fl (p.dens / fl phys) * fl (q.dens / fl c.rscale)) }) parts all) with
        | .error e => .crashed e
        | .ok a => .value a
      else .raised .valueError

/-- `get_dens_weighted_density` on one process for HDF5 snapshots, fake_spectra/spectra.py:958-981, 1026-1047, with the simplifications of `get_temp`. -/
noncomputable def get_dens_weighted_density (fl : ℝ → ℝ) (c : Config) (phys : ℝ) (segs : List (List Raw)) : Outcome (List ℝ) :=
  match WeightMean.sumFiles (densweight_single_file fl c phys) segs with
  | .raised e => .raised e
  | .crashed e => .crashed e
  | .value result => match DensityRounding.compute_spectra fl c false segs with
    | .raised e => .raised e
    | .crashed e => .crashed e
    | .value colden => .value (WeightMean.divide result (colden.map (fun x => x / phys)))

/-- One component of `_vel_single_file`, fake_spectra/spectra.py:945-956, in single precision, as products are before NumPy 2 (`Model/NumTypes`). The result of
the interpolation is not rounded here when it is stored. -/
noncomputable def vel_single_file (fl : ℝ → ℝ) (c : Config) (phys atime : ℝ) (ax : Fin 3) (seg : List Raw) : Outcome (List ℝ) :=
  match DensityRounding.read_particle_data fl c true seg with
  | .error e => .raised e
  | .ok none => .value (zeros c)
  | .ok (some parts) => match interpolate c false
      (parts.map (fun p => { p with dens := fl (fl (p.dens * fl (p.vel ax * fl (Real.sqrt atime))) / fl phys) })) with
    | .error e => .crashed e
    | .ok a => .value a

/-- One component of `get_velocity` on one process for HDF5 snapshots, fake_spectra/spectra.py:958-992, with the simplifications of `get_temp`, where each pixel
is divided by its own density (`WeightMean.velocityDen` says when it is not). -/
noncomputable def get_velocity (fl : ℝ → ℝ) (c : Config) (phys atime : ℝ) (ax : Fin 3) (segs : List (List Raw)) : Outcome (List ℝ) :=
  match WeightMean.sumFiles (vel_single_file fl c phys atime ax) segs with
  | .raised e => .raised e
  | .crashed e => .crashed e
  | .value result => match DensityRounding.compute_spectra fl c false segs with
    | .raised e => .raised e
    | .crashed e => .crashed e
    | .value colden => .value (WeightMean.divide result (colden.map (fun x => x / phys)))

end Verif.DensityRounding
