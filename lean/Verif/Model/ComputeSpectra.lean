import Verif.Model.PartInt

/-!
Model of `Spectra.compute_spectra` and what it calls (fake_spectra/spectra.py:501-617, 675-685,
801-831): reading segments, selecting particles, computing species densities, interpolating, adding
up segments and MPI ranks.
-/

namespace Verif
namespace ComputeSpectra

open PartInt IndexTable Absorption

/-- One gas particle of a snapshot segment: what the snapshot reader and the gas property object
return for its index. -/
structure Raw where
  pos : Vec3
  vel : Vec3
  h : ℝ
  /-- `gasprop.get_code_rhoH` -/
  den : ℝ
  /-- `get_mass_frac` -/
  massFrac : ℝ
  /-- `gasprop.get_temp`, fake_spectra/gas_properties.py:101-103 -/
  temp : ℝ
  /-- `gasprop.get_reproc_HI` -/
  nHI : ℝ

/-- The three branches on `(elem, ion)` in fake_spectra/spectra.py:594-610. -/
inductive Species where
  /-- neutral hydrogen, `elem == 'H' and ion == 1` -/
  | HI
  /-- all ions of an element, `ion == -1` -/
  | all
  /-- one ion of an element other than hydrogen: the ionisation table as a function of density and
  temperature (fake_spectra/spectra.py:637-664), from the object which `_get_cloudy_table` makes
  (fake_spectra/spectra.py:38-43) -/
  | ion (table : ℝ → ℝ → ℝ)
  /-- `elem == 'H'` with an ion that is neither 1 nor -1 -/
  | Hion (table : ℝ → ℝ → ℝ)

/-- The parts of a `Spectra` object that the computation reads. -/
structure Config where
  L : LineAbsorption
  nbins : ℕ
  box : ℝ
  lines : List Line
  rscale : ℝ
  amumass : ℝ
  sp : Species

/-- fake_spectra/spectra.py:588-590: non-positive temperatures are replaced by 1. -/
noncomputable def fixTemp (t : ℝ) : ℝ := if t ≤ 0 then 1 else t

/-- `elem_den` before the ionisation correction, fake_spectra/spectra.py:594. -/
noncomputable def elemDen (c : Config) (r : Raw) : ℝ := r.den * c.rscale * r.massFrac

/-- The particle passed to the interpolator, given its species density and temperature. -/
noncomputable def toPart (c : Config) (r : Raw) (dens temp : ℝ) : Part :=
  ⟨r.pos, r.vel, dens / c.amumass, temp, r.h⟩

/-- `particles_near_lines`, fake_spectra/spectra.py:675-685. -/
noncomputable def particles_near_lines (c : Config) (seg : List Raw) : Py (List ℕ) :=
  if c.lines.all (fun l => decide (0 < l.axis ∧ l.axis < 4)) then
    .ok (near_lines c.box (seg.map (fun r => (r.pos, r.h))) c.lines)
  else .error .assertionError

/-- `_read_particle_data`, fake_spectra/spectra.py:550-617. `none` is the tuple of `False`s returned
when there is nothing to interpolate. The cached index list (`part_ind`) equals the recomputed one
as long as the sightlines have not moved. The filter on the density is
`_filter_particles`, fake_spectra/spectra.py:631-635. When temperatures are not read `temp` is an array of one
zero, so indexing it fails beyond index 0. -/
noncomputable def read_particle_data (c : Config) (get_tau : Bool) (seg : List Raw) :
    Py (Option (List Part)) := do
  let ind ← particles_near_lines c seg
  if ind.isEmpty then .ok none
  else
    let sel := ind.filterMap (fun i => seg[i]?)
    match c.sp with
    | .HI => .ok (some (sel.map (fun r =>
        toPart c r (elemDen c r * r.nHI) (if get_tau then fixTemp r.temp else 0))))
    | .all => .ok (some (sel.map (fun r =>
        toPart c r (elemDen c r) (if get_tau then fixTemp r.temp else 0))))
    | .ion table =>
      let sel := sel.filter (fun r => decide (0 < elemDen c r))
      if sel.isEmpty then .ok none
      else .ok (some (sel.map (fun r =>
        toPart c r (elemDen c r * table r.den (fixTemp r.temp)) (fixTemp r.temp))))
    | .Hion table =>
      if get_tau then
        let sel := sel.filter (fun r => decide (0 < elemDen c r))
        if sel.isEmpty then .ok none
        else .ok (some (sel.map (fun r =>
          toPart c r (elemDen c r * table r.den (fixTemp r.temp)) (fixTemp r.temp))))
      else
        let keep := (sel.zipIdx).filter (fun r => decide (0 < elemDen c r.1))
        if keep.isEmpty then .ok none
        else if keep.any (fun r => decide (1 ≤ r.2)) then .error .indexError
        else .ok (some (keep.map (fun r => toPart c r.1 (elemDen c r.1 * table r.1.den 0) 0)))

/-- An array of zeros of shape `(NumLos, nbins)`, flattened. -/
def zeros (c : Config) : List ℝ := List.replicate (c.lines.length * c.nbins) 0

/-- The extension module on good arguments: fake_spectra/py_module.cpp:165-221. A C-level failure is
not a Python exception; it is kept apart. -/
noncomputable def interpolate (c : Config) (get_tau : Bool) (parts : List Part) : CRes (List ℝ) :=
  if get_tau then compute_tau c.L c.nbins c.box c.lines parts (zeros c)
  else compute_colden c.L c.nbins c.box c.lines parts (zeros c)

/-- Outcome of a computation that crosses from Python into C++. -/
inductive Outcome (α : Type) where
  | value (a : α)
  | raised (e : PyErr)
  | crashed (e : CErr)

/-- `_interpolate_single_file` without `load_all_data_first`, fake_spectra/spectra.py:501-548. -/
noncomputable def interpolate_single_file (c : Config) (get_tau : Bool) (seg : List Raw) :
    Outcome (List ℝ) :=
  match read_particle_data c get_tau seg with
  | .error e => .raised e
  | .ok none => .value (zeros c)
  | .ok (some parts) => match interpolate c get_tau parts with
    | .error e => .crashed e
    | .ok a => .value a

/-- `result += tresult`, elementwise. -/
noncomputable def addArr (a b : List ℝ) : List ℝ := List.zipWith (· + ·) a b

/-- The loop over the remaining segments, fake_spectra/spectra.py:819-824. -/
noncomputable def addSegments (c : Config) (get_tau : Bool) (result : List ℝ) :
    List (List Raw) → Outcome (List ℝ)
  | [] => .value result
  | seg :: segs => match interpolate_single_file c get_tau seg with
    | .value t => addSegments c get_tau (addArr result t) segs
    | .raised e => .raised e
    | .crashed e => .crashed e

/-- `compute_spectra` on one rank for kernels other than the Voronoi mesh,
fake_spectra/spectra.py:801-831. A snapshot with no segment for this rank makes the read of segment
0 fail (see `Verif.Model.Snapshot`); here that is an index error. -/
noncomputable def compute_spectra (c : Config) (get_tau : Bool) : List (List Raw) → Outcome (List ℝ)
  | [] => .raised .indexError
  | seg :: segs => match interpolate_single_file c get_tau seg with
    | .value t => addSegments c get_tau t segs
    | .raised e => .raised e
    | .crashed e => .crashed e

/-- The loop of `load_all_data_first`, fake_spectra/spectra.py:504-525: particles of the remaining
segments are appended, segments with nothing to interpolate are skipped. -/
noncomputable def loadRest (c : Config) (get_tau : Bool) (acc : Option (List Part)) :
    List (List Raw) → Py (Option (List Part))
  | [] => .ok acc
  | seg :: segs => do
    let r ← read_particle_data c get_tau seg
    match r, acc with
    | none, _ => loadRest c get_tau acc segs
    | some ps, none => loadRest c get_tau (some ps) segs
    | some ps, some qs => loadRest c get_tau (some (qs ++ ps)) segs

/-- `compute_spectra` on one rank for the moving mesh: all the segments are loaded before
interpolating, fake_spectra/spectra.py:501-548, 815-817. -/
noncomputable def compute_spectra_mesh (c : Config) (get_tau : Bool) :
    List (List Raw) → Outcome (List ℝ)
  | [] => .raised .indexError
  | seg :: segs => match (do
      let first ← read_particle_data c get_tau seg
      loadRest c get_tau first segs) with
    | .error e => .raised e
    | .ok none => .value (zeros c)
    | .ok (some parts) => match interpolate c get_tau parts with
      | .error e => .crashed e
      | .ok a => .value a

/-- `Allreduce(SUM)` over the ranks, fake_spectra/spectra.py:826-831: every rank ends up with the sum;
if one rank fails there is no result. -/
noncomputable def compute_spectra_mpi (c : Config) (get_tau : Bool) :
    List (List (List Raw)) → Outcome (List ℝ)
  | [] => .value (zeros c)
  | rank :: ranks => match compute_spectra c get_tau rank, compute_spectra_mpi c get_tau ranks with
    | .value a, .value b => .value (addArr a b)
    | .raised e, _ => .raised e
    | .crashed e, _ => .crashed e
    | _, .raised e => .raised e
    | _, .crashed e => .crashed e

/-- The same for the moving mesh: `load_all_data_first` loads the segments of the rank only,
fake_spectra/spectra.py:501-548, 815-831. -/
noncomputable def compute_spectra_mesh_mpi (c : Config) (get_tau : Bool) :
    List (List (List Raw)) → Outcome (List ℝ)
  | [] => .value (zeros c)
  | rank :: ranks => match compute_spectra_mesh c get_tau rank, compute_spectra_mesh_mpi c get_tau ranks with
    | .value a, .value b => .value (addArr a b)
    | .raised e, _ => .raised e
    | .crashed e, _ => .crashed e
    | _, .raised e => .raised e
    | _, .crashed e => .crashed e

end ComputeSpectra
end Verif
