import Verif.Model.HaloAssigned
import Verif.Model.Absorbers

/-!
Model of the statistics of halos in haloassigned_spectra.py: the halos near the absorption of each sightline, the histogram of the
virial velocities of hosts and the stellar mass function. What is printed is not modelled.
-/

namespace Verif.HaloStats
open Verif.Np Verif.HaloAssigned Verif.SpecTools

/-- `find_nearby_halos`, haloassigned_spectra.py:190-206, when it is first called; later calls return what was stored. The order of
the elements of Python's sets is left open: lists without repetition. A position that is not a number is in no halo. -/
noncomputable def find_nearby_halos (nbins : ℕ) (box : ℝ) (den : List (List ℝ)) (cofm : List Pos3) (axis : List ℤ) (halos subhalos : List Halo) :
    Py (List (List ℕ) × List (List ℕ)) := do
  let zpos ← get_contiguous_regions nbins box den 1e19 1e-2
  let zpos := zpos.map (fun z => z.filterMap id)
  let h ← assign_to_halo cofm axis zpos halos
  let s ← assign_to_halo cofm axis zpos subhalos
  pure (h.map (fun r => (r.map Prod.fst).dedup), s.map (fun r => (r.map Prod.fst).dedup))

/-- `mass_hist`, haloassigned_spectra.py:28-47, from the host of each sightline (-1 for none) and the virial velocities of all halos.
The logarithm of the table is that from which the table is made. Halos of zero velocity are at minus infinity, which is in no bin; if
there are no others the table cannot be made. -/
noncomputable def mass_hist (dm : ℝ) (halos : List ℤ) (virial : List ℝ) : Py (List ℝ × Option (List ℝ)) := do
  let v ← (halos.filter (fun h => decide (h ≠ -1))).mapM (get virial)
  let lo ← minOf v
  let hi ← maxOf v
  if hi = 0 then .error .valueError
  else do
    let t ← Absorbers.arange (Real.logb 10 (lo + 0.1)) (Real.logb 10 hi) dm
    let m_table := t.map (fun x => (10 : ℝ) ^ x)
    let mbin := m_table.zipWith (fun a b => (a + b) / 2) m_table.tail
    let h ← Absorbers.histogramOf t ((v.filter (fun x => decide (0 < x))).map (Real.logb 10))
    pure (mbin, Absorbers.normalise h (t.tail.zipWith (· - ·) t))

/-- `np.logspace(6, 12)`: 50 values. -/
noncomputable def massEdge (i : ℕ) : ℝ := (10 : ℝ) ^ ((6 : ℝ) + i * (6 / 49))

/-- `get_stellar_mass_function`, haloassigned_spectra.py:208-220, from the fourth column of `GroupMassType`. -/
noncomputable def get_stellar_mass_function (groups : List ℝ) : Py (List ℝ × List ℝ) := do
  let stellar_mass := groups.map (fun m => m * 1e10 / 0.7)
  let bins := (List.range 50).map massEdge
  let dlogM := Real.logb 10 (massEdge 1) - Real.logb 10 (massEdge 0)
  let volume := (25 / (0.7 : ℝ)) ^ 3
  let gsmf ← Absorbers.histogramOf bins stellar_mass
  let sm := bins.tail.zipWith (fun b a => (b + a) / 2) bins
  pure (sm, gsmf.map (fun (c : ℤ) => (c : ℝ) / volume / dlogM))

end Verif.HaloStats
