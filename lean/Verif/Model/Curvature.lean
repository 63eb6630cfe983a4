import Verif.Model.SpecTools
import Verif.Model.MeanFlux
import Mathlib.Analysis.SpecialFunctions.Pow.Real
import Mathlib.Analysis.SpecialFunctions.Log.Basic

/-!
Model of the curvature statistic of spectra.py: `compute_curvature` (1452-1481) and `get_curvature` (1484-1525), with
`np.gradient` and `obs_mean_tau` (fluxstatistics.py:21-24).

`none` in place of a flux is a value that is not a number. Comparisons with it are false.
-/

namespace Verif.Curvature
open Verif Verif.Np Verif.SpecTools

/-- `obs_mean_tau`, fluxstatistics.py:21-24. -/
noncomputable def obs_mean_tau (redshift : ℝ) : ℝ := 0.0023 * (1 + redshift) ^ (3.65 : ℝ)

/-- `np.linspace(0, vmax, n)`, spectra.py:1340 and 1460. -/
noncomputable def linspace (vmax : ℝ) (n : ℕ) : List ℝ :=
  if n = 1 then [0] else (List.range n).map (fun (i : ℕ) => (i : ℝ) * (vmax / ((n : ℝ) - 1)))

/-- The first element of `np.gradient(f, x, edge_order=2)`. -/
noncomputable def gradFirst (x0 x1 x2 f0 f1 f2 : ℝ) : ℝ :=
  let dx1 := x1 - x0
  let dx2 := x2 - x1
  (-(2 * dx1 + dx2)) / (dx1 * (dx1 + dx2)) * f0 + (dx1 + dx2) / (dx1 * dx2) * f1 + -dx1 / (dx2 * (dx1 + dx2)) * f2

/-- An element of `np.gradient(f, x, edge_order=2)` that has two neighbours. -/
noncomputable def gradMiddle (x0 x1 x2 f0 f1 f2 : ℝ) : ℝ :=
  let dx1 := x1 - x0
  let dx2 := x2 - x1
  (-dx2) / (dx1 * (dx1 + dx2)) * f0 + (dx2 - dx1) / (dx1 * dx2) * f1 + dx1 / (dx2 * (dx1 + dx2)) * f2

/-- The last element of `np.gradient(f, x, edge_order=2)`. -/
noncomputable def gradLast (x0 x1 x2 f0 f1 f2 : ℝ) : ℝ :=
  let dx1 := x1 - x0
  let dx2 := x2 - x1
  dx2 / (dx1 * (dx1 + dx2)) * f0 + -(dx2 + dx1) / (dx1 * dx2) * f1 + (2 * dx2 + dx1) / (dx2 * (dx1 + dx2)) * f2

/-- `np.gradient(f, x, edge_order=2)`, spectra.py:1471 and 1473. numpy has a second formula for points that are equally
spaced, which is the same over the reals. Points that coincide give a division by zero, which is not modelled. -/
noncomputable def gradient (f x : List ℝ) : Py (List ℝ) :=
  if f.length ≠ x.length ∨ f.length < 3 then .error .valueError
  else
    let n := f.length
    let F := fun (i : ℕ) => f.getD i 0
    let X := fun (i : ℕ) => x.getD i 0
    .ok ((List.range n).map (fun (i : ℕ) =>
      if i = 0 then gradFirst (X 0) (X 1) (X 2) (F 0) (F 1) (F 2)
      else if i = n - 1 then gradLast (X (n - 3)) (X (n - 2)) (X (n - 1)) (F (n - 3)) (F (n - 2)) (F (n - 1))
      else gradMiddle (X (i - 1)) (X i) (X (i + 1)) (F (i - 1)) (F i) (F (i + 1))))

/-- `flux[i] > 0.1 and flux[i] < 0.9`, spectra.py:1467. -/
noncomputable def inRange : Option ℝ → Bool
  | none => false
  | some f => decide (0.1 < f ∧ f < 0.9)

/-- `flux_range`, spectra.py:1467. -/
noncomputable def fluxRange (row : List (Option ℝ)) : List ℕ :=
  (List.range row.length).filter (fun i => inRange (row.getD i none))

/-- `np.mean(np.abs(flux_pp/((1 + flux_p**2)**(3/2))))`, spectra.py:1476. -/
noncomputable def meanAbs (fp fpp : List ℝ) : ℝ :=
  mean (List.zipWith (fun p pp => |pp / (1 + p ^ 2) ^ ((3 : ℝ) / 2)|) fp fpp)

/-- The body of the loop of `compute_curvature`, spectra.py:1464-1476, for the velocities `vel`. -/
noncomputable def rowCurvature (vel : List ℝ) (row : List (Option ℝ)) : Py ℝ :=
  let r := fluxRange row
  if 2 < r.length then do
    let x ← r.mapM (fun (i : ℕ) => get vel i)
    let f := r.map (fun i => (row.getD i none).getD 0)
    let fp ← gradient f x
    let fpp ← gradient fp x
    pure (meanAbs fp fpp)
  else pure 0

/-- `compute_curvature`, spectra.py:1452-1481, for rows of `ncol` pixels. -/
noncomputable def compute_curvature (vmax : ℝ) (nbins ncol : ℕ) (flux : List (List (Option ℝ))) : Py (List ℝ) := do
  let vel := (linspace vmax nbins).take ncol
  let c ← flux.mapM (rowCurvature vel)
  pure (c.filter (fun x => decide (0 < x)))

/-- `flux_sections > 0`, spectra.py:1514. -/
noncomputable def positive : Option ℝ → Bool
  | none => false
  | some f => decide (0 < f)

/-- `tau = -np.log(flux_sections[flux_sections > 0])`, spectra.py:1514. -/
noncomputable def sectionTaus (flux : List (List (Option ℝ))) : List ℝ :=
  flux.flatten.filterMap (fun f => if positive f then f.map (fun f => -Real.log f) else none)

/-- `flux_sections[flux_sections > 0]**scale` in place, spectra.py:1519. A scale that is not finite leaves zeros, ones or
values that are not numbers; all of these are out of range for `compute_curvature`, and they are all `none` here. -/
noncomputable def rescale (scale : Option ℝ) (f : Option ℝ) : Option ℝ :=
  if positive f then
    match scale with
    | none => none
    | some s => f.map (fun f => f ^ s)
  else f

/-- `get_curvature` after the flux has been found, spectra.py:1508-1525, for flux of `npix = nbins` pixels. `fuel` bounds the
loop of `mean_flux`. -/
noncomputable def curvatureOfFlux (vmax velfac box atime : ℝ) (nbins : ℕ) (section_size : ℝ) (fuel : ℕ)
    (flux : List (List ℝ)) : Run (List ℝ) :=
  let section_size := if section_size = 0 then box else section_size
  Run.andThen (some (renormalize_flux vmax velfac box nbins flux section_size)) fun sections =>
    match MeanFlux.mean_flux (sectionTaus sections) (Real.exp (-obs_mean_tau (1 / atime - 1))) 1e-5 1e30 fuel with
    | none => none
    | some scale =>
      let scaled := sections.map (fun row => row.map (rescale scale))
      some (compute_curvature vmax nbins ((scaled.headD []).length) scaled)

/-- `get_curvature` without noise, spectra.py:1484-1525: `tau` is what `get_tau` returns. -/
noncomputable def get_curvature (vmax velfac box atime : ℝ) (nbins : ℕ) (section_size : ℝ) (fuel : ℕ)
    (tau : List (List ℝ)) : Run (List ℝ) :=
  curvatureOfFlux vmax velfac box atime nbins section_size fuel (tau.map (fun row => row.map (fun t => Real.exp (-t))))

end Verif.Curvature
