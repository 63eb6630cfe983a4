import Verif.Model.WeightMean
import Verif.Model.LineData

/-!
Model of a query for an element, an ion and a line, fake_spectra/spectra.py:501-673, 801-831: the atomic mass and the abundance of the
element, the table of ions, and the line whose data are handed to the interpolator. `Verif.Model.ComputeSpectra` starts where these have been
found.
-/

namespace Verif.SpeciesQuery

open PartInt IndexTable Absorption ComputeSpectra WeightMean

/-- `LineData.masses`, fake_spectra/line_data.py:21. -/
noncomputable def masses : String → Option ℝ
  | "H" => some 1.00794
  | "He" => some 4.002602
  | "C" => some 12.011
  | "N" => some 14.00674
  | "O" => some 15.9994
  | "Ne" => some 20.18
  | "Mg" => some 24.3050
  | "Si" => some 28.0855
  | "Fe" => some 55.847
  | _ => none

/-- `LineData.get_mass`, fake_spectra/line_data.py:44-46. -/
noncomputable def get_mass (elem : String) : Py ℝ :=
  match masses elem with
  | some m => .ok m
  | none => .error .keyError

/-- The table of ions made by `_get_cloudy_table`, fake_spectra/spectra.py:38-43: its bounds of temperature and density, and the function
for an ion. Its source is not in the repository; an element or ion which it refuses is an exception. -/
structure Cloudy where
  tlo : ℝ
  thi : ℝ
  dlo : ℝ
  dhi : ℝ
  ion : String → ℤ → Py (ℝ → ℝ → ℝ)

/-- What a query reads from a `Spectra` object. -/
structure Obj where
  table : LineData.Key → Option LineData.Line
  cloudy : Cloudy
  profile : ℝ → ℝ → ℝ
  turn_off_selfshield : Bool
  nbins : ℕ
  box : ℝ
  velfac : ℝ
  kernel : ℤ
  tautail : ℝ
  sightlines : List Line
  rscale : ℝ

/-- One gas particle, without its abundances. -/
structure Gas where
  pos : Vec3
  vel : Vec3
  h : ℝ
  den : ℝ
  temp : ℝ
  nHI : ℝ

/-- A segment of the snapshot: the gas, and the blocks of abundances. -/
structure Seg where
  gas : List Gas
  blocks : Blocks

/-- The loop `for ii in range(8)`, fake_spectra/spectra.py:533-538: the first ion with this line. -/
def tryIons (table : LineData.Key → Option LineData.Line) (elem : String) (ll : ℤ) : List ℕ → Option LineData.Line
  | [] => none
  | ii :: rest => match table (elem.toList, (ii : ℤ), ll) with
    | some ln => some ln
    | none => tryIons table elem ll rest

/-- The choice of the line, fake_spectra/spectra.py:528-546. If the loop over ions ends without a line, `line` is not bound. The table is a
dictionary of dictionaries; a missing entry of either is a `KeyError`. -/
def findLine (o : Obj) (elem : String) (ion ll : ℤ) (get_tau : Bool) : Py LineData.Line :=
  if get_tau then
    if ion = -1 then
      match tryIons o.table elem ll (List.range 8) with
      | some ln => .ok ln
      | none => .error .unboundLocalError
    else
      match o.table (elem.toList, ion, ll) with
      | some ln => .ok ln
      | none => .error .keyError
  else
    match o.table (['H'], 1, 1215) with
    | some ln => .ok ln
    | none => .error .keyError

/-- The limits of the table applied to an array, fake_spectra/spectra.py:646-663. -/
noncomputable def clampArr (lo hi : ℝ) (xs : List ℝ) : List ℝ :=
  if xs.any (fun x => decide (x > hi)) || xs.any (fun x => decide (x < lo)) then
    (xs.map (fun x => if x > hi then hi else x)).map (fun x => if x < lo then lo else x)
  else xs

/-- `_get_elem_den`, fake_spectra/spectra.py:637-664. -/
noncomputable def get_elem_den (cl : Cloudy) (elem : String) (ion : ℤ) (den temp : List ℝ) : Py (List ℝ) := do
  let f ← cl.ion elem ion
  pure (List.zipWith f (clampArr cl.dlo cl.dhi den) (clampArr cl.tlo cl.thi temp))

/-- `particles_near_lines`, fake_spectra/spectra.py:675-685. -/
noncomputable def nearIndices (o : Obj) (gas : List Gas) : Py (List ℕ) :=
  if o.sightlines.all (fun l => decide (0 < l.axis ∧ l.axis < 4)) then
    .ok (near_lines o.box (gas.map (fun g => (g.pos, g.h))) o.sightlines)
  else .error .assertionError

/-- The rows for the interpolator: density in number, and temperature. -/
noncomputable def mkParts (amumass : ℝ) (gas : List Gas) (dens temps : List ℝ) : List Part :=
  List.zipWith (fun (g : Gas) (dt : ℝ × ℝ) => ⟨g.pos, g.vel, dt.1 / amumass, dt.2, g.h⟩) gas (dens.zip temps)

/-- `_read_particle_data`, fake_spectra/spectra.py:550-617, for an element and an ion: the rows for the interpolator and the mass, `none` for
the tuple of `False`. Arrays over the selected particles are lists. The array of temperatures is one zero when temperatures are not read; in
that case, for the branches which do not index it, it is not read by the interpolator, and stands as zeros here. -/
noncomputable def read_particle_data (o : Obj) (elem : String) (ion : ℤ) (get_tau : Bool) (seg : Seg) : Py (Option (List Part × ℝ)) := do
  let ind ← nearIndices o seg.gas
  if ind.isEmpty then pure none
  else do
    let amumass ← (if elem ≠ "Z" then get_mass elem else .ok 1)
    let sel := ind.filterMap (fun i => seg.gas[i]?)
    let readTemp : Bool := get_tau || (decide (ion ≠ -1) && decide (elem ≠ "H"))
    let temp := if readTemp then sel.map (fun g => if g.temp ≤ 0 then 1 else g.temp) else [0]
    let frac ← get_mass_frac seg.blocks elem ind
    let elem_den := List.zipWith (fun (g : Gas) m => g.den * o.rscale * m) sel frac
    if elem = "H" ∧ ion = 1 then
      pure (some (mkParts amumass sel (List.zipWith (fun d (g : Gas) => d * g.nHI) elem_den sel)
        (if readTemp then temp else sel.map (fun _ => 0)), amumass))
    else if ion ≠ -1 then do
      let rows := (sel.zip elem_den).zipIdx.filter (fun r => decide (r.1.2 > 0))
      if rows.isEmpty then pure none
      else do
        let temp ← rows.mapM (fun r => Np.get temp (r.2 : ℤ))
        let fion ← get_elem_den o.cloudy elem ion (rows.map (fun r => r.1.1.den)) temp
        pure (some (mkParts amumass (rows.map (fun r => r.1.1)) (List.zipWith (fun r x => r.1.2 * x) rows fion) temp, amumass))
    else
      pure (some (mkParts amumass sel elem_den (if readTemp then temp else sel.map (fun _ => 0)), amumass))

/-- The arguments of the interpolator, `_do_interpolation_work`, fake_spectra/spectra.py:666-673. -/
noncomputable def lineArgs (o : Obj) (amumass : ℝ) (ln : LineData.Line) : LineAbsorption :=
  LineAbsorption.mk' o.profile (ln.lambda * 1e-8) (if o.turn_off_selfshield then 0 else ln.gamma) ln.fosc amumass o.velfac o.box o.kernel
    o.tautail

/-- `_interpolate_single_file`, fake_spectra/spectra.py:501-548, without `load_all_data_first`. -/
noncomputable def interpolate_single_file (o : Obj) (elem : String) (ion ll : ℤ) (get_tau : Bool) (seg : Seg) : Outcome (List ℝ) :=
  match read_particle_data o elem ion get_tau seg with
  | .error e => .raised e
  | .ok none => .value (List.replicate (o.sightlines.length * o.nbins) 0)
  | .ok (some (parts, amumass)) =>
    match findLine o elem ion ll get_tau with
    | .error e => .raised e
    | .ok ln =>
      match (if get_tau then compute_tau (lineArgs o amumass ln) o.nbins o.box o.sightlines parts (List.replicate (o.sightlines.length * o.nbins) 0)
        else compute_colden (lineArgs o amumass ln) o.nbins o.box o.sightlines parts (List.replicate (o.sightlines.length * o.nbins) 0)) with
      | .error e => .crashed e
      | .ok a => .value a

/-- The loop over the remaining segments, fake_spectra/spectra.py:819-824. -/
noncomputable def addSegments (o : Obj) (elem : String) (ion ll : ℤ) (get_tau : Bool) (result : List ℝ) : List Seg → Outcome (List ℝ)
  | [] => .value result
  | seg :: segs => match interpolate_single_file o elem ion ll get_tau seg with
    | .value t => addSegments o elem ion ll get_tau (addArr result t) segs
    | .raised e => .raised e
    | .crashed e => .crashed e

/-- `compute_spectra`, fake_spectra/spectra.py:801-831, on one process and for a kernel other than the Voronoi mesh. -/
noncomputable def compute_spectra (o : Obj) (elem : String) (ion ll : ℤ) (get_tau : Bool) : List Seg → Outcome (List ℝ)
  | [] => .raised .indexError
  | seg :: segs => match interpolate_single_file o elem ion ll get_tau seg with
    | .value t => addSegments o elem ion ll get_tau t segs
    | .raised e => .raised e
    | .crashed e => .crashed e

/-- The loop of `load_all_data_first`, fake_spectra/spectra.py:504-525. The mass is that of the last segment with particles. -/
noncomputable def loadRest (o : Obj) (elem : String) (ion : ℤ) (get_tau : Bool) (acc : Option (List Part × ℝ)) :
    List Seg → Py (Option (List Part × ℝ))
  | [] => .ok acc
  | seg :: segs => do
    let r ← read_particle_data o elem ion get_tau seg
    match r, acc with
    | none, _ => loadRest o elem ion get_tau acc segs
    | some p, none => loadRest o elem ion get_tau (some p) segs
    | some p, some q => loadRest o elem ion get_tau (some (q.1 ++ p.1, p.2)) segs

/-- `compute_spectra` on one process for the Voronoi mesh, fake_spectra/spectra.py:501-548, 815-817. -/
noncomputable def compute_spectra_mesh (o : Obj) (elem : String) (ion ll : ℤ) (get_tau : Bool) : List Seg → Outcome (List ℝ)
  | [] => .raised .indexError
  | seg :: segs => match (do
      let first ← read_particle_data o elem ion get_tau seg
      loadRest o elem ion get_tau first segs) with
    | .error e => .raised e
    | .ok none => .value (List.replicate (o.sightlines.length * o.nbins) 0)
    | .ok (some (parts, amumass)) =>
      match findLine o elem ion ll get_tau with
      | .error e => .raised e
      | .ok ln =>
        match (if get_tau then compute_tau (lineArgs o amumass ln) o.nbins o.box o.sightlines parts (List.replicate (o.sightlines.length * o.nbins) 0)
          else compute_colden (lineArgs o amumass ln) o.nbins o.box o.sightlines parts (List.replicate (o.sightlines.length * o.nbins) 0)) with
        | .error e => .crashed e
        | .ok a => .value a

/-- The sum over the processes, fake_spectra/spectra.py:826-831. `one` is the computation of a process. -/
noncomputable def overRanks (o : Obj) (one : List Seg → Outcome (List ℝ)) : List (List Seg) → Outcome (List ℝ)
  | [] => .value (List.replicate (o.sightlines.length * o.nbins) 0)
  | rank :: ranks => match one rank, overRanks o one ranks with
    | .value a, .value b => .value (addArr a b)
    | .raised e, _ => .raised e
    | .crashed e, _ => .crashed e
    | _, .raised e => .raised e
    | _, .crashed e => .crashed e

end Verif.SpeciesQuery
